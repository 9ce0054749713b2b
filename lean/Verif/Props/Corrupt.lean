import Verif.Lemmas.Corrupt
import Verif.Props.Mock
/-! # C52, C53, C74: missing data, corrupted subjects and corrupted data -/
set_option linter.unusedSectionVars false
namespace Sureal.Props
open Spec Mock
variable {κ K : Type} [LinearOrder κ] [Field K] [LinearOrder K] [IsStrictOrderedRing K]

/-! ## Missing data -/

theorem mul_one_fl (x : Fl K) : x * 1 = x := by
  cases x with
  | nan => rfl
  | pinf =>
    show Fl.infMul true (1 : K) = _
    simp [Fl.infMul]
  | ninf =>
    show Fl.infMul false (1 : K) = _
    simp [Fl.infMul]
  | fin x => rw [Fl.one_def, Fl.fin_mul, mul_one]

theorem mul_nan_fl (x : Fl K) : x * Fl.nan = Fl.nan := by
  cases x <;> rfl

theorem maskOf_eq {p u : K} (hu : u < 1) : maskOf (.fin p) (.fin u) = if u ≤ p then .nan else 1 := by
  unfold maskOf
  by_cases h : u ≤ p
  · rw [if_pos h]
    simp only [Fl.lt_fin, decide_eq_true_eq, not_lt.mpr h, if_false, Fl.le_fin, h, if_true]
  · rw [if_neg h]
    simp only [Fl.lt_fin, decide_eq_true_eq, not_le.mp h, if_true, Fl.one_def, Fl.le_fin]
    rw [if_neg]
    intro h1
    exact h (hu.le.trans h1)

/-- **C52.** For every stream of draws in [0,1) and every probability, the reader of missing data returns the base array
with exactly those cells removed whose draw (in C order) is at most the probability.  Dataset, videos and observers are
untouched; without `missing_probability` the reader is refused. -/
theorem C52_missing (d : Dataset κ K) (rd : Reader κ K) (hraw : rawReader d = .ok rd) (base : Arr3D (Fl K))
    (hbase : rd.scores = .ok base) (p : K) (u : ℕ → K) (hu : ∀ n, u n < 1) :
    missingReader d none u = .error .assertion ∧
    ∃ rd' arr, missingReader d (some (.fin p)) u = .ok rd' ∧ rd'.dataset = d ∧ rd'.disVideos = rd.disVideos ∧
      rd'.observers = rd.observers ∧ rd'.scores = .ok arr ∧
      arr.E = base.E ∧ arr.S = base.S ∧ arr.R = base.R ∧
      (∀ e s r, cell base e s r = none → cell arr e s r = none) ∧
      ∀ e s r v, cell base e s r = some v →
        cell arr e s r = some (if u ((e * base.S + s) * base.R + r) ≤ p then .nan else v) := by
  constructor
  · unfold missingReader
    rw [hraw]
  refine ⟨{ rd with scores := .ok (missing (.fin p) u base) }, missing (.fin p) u base, ?_, ?_, rfl, rfl, rfl, rfl, rfl,
    rfl, ?_, ?_⟩
  · unfold missingReader
    rw [hraw]
    dsimp only
    rw [hbase]
  · exact (rawReader_inv hraw).2 ▸ rfl
  · intro e s r h
    unfold cell at h ⊢
    split at h
    · cases h
    · rename_i hh
      exact dif_neg hh
  · intro e s r v h
    unfold cell at h
    split at h
    · rename_i hh
      have hv := Option.some.inj h
      have hc : cell (missing (.fin p) u base) e s r =
          some ((missing (.fin p) u base).get ⟨e, hh.1⟩ ⟨s, hh.2.1⟩ ⟨r, hh.2.2⟩) :=
        dif_pos (show e < (missing (.fin p) u base).E ∧ s < (missing (.fin p) u base).S ∧
          r < (missing (.fin p) u base).R from hh)
      rw [hc]
      refine congrArg some ?_
      unfold missing flatIdx
      dsimp only
      rw [hv, maskOf_eq (hu _)]
      split
      · exact mul_nan_fl v
      · exact mul_one_fl v
    · cases h

/-! ## Corrupted data -/

/-- **C74.** For every stream of draws in [0,1) and every probability, the reader of corrupted data replaces exactly the
cells whose draw is at most the probability: each by `1 + (ref_score - 1) * u` with a draw `u` of its own made after the
first `E * S * R` (later cells use later draws), which lies between 1 and `ref_score`; all other cells are kept.  Missing votes are replaced too. -/
theorem C74_corrupt_data (d : Dataset κ K) (rd : Reader κ K) (hraw : rawReader d = .ok rd) (base : Arr3D (Fl K))
    (hbase : rd.scores = .ok base) (p ref : K) (href : d.refScore = some (some (.fin ref))) (h1 : 1 ≤ ref)
    (u : ℕ → K) (hu : ∀ n, 0 ≤ u n ∧ u n < 1) :
    corruptDataReader d none u = .error .assertion ∧
    ∃ rd' arr, ∃ own : ℕ → ℕ, corruptDataReader d (some (.fin p)) u = .ok rd' ∧ rd'.dataset = d ∧
      rd'.disVideos = rd.disVideos ∧ rd'.observers = rd.observers ∧ rd'.scores = .ok arr ∧
      arr.E = base.E ∧ arr.S = base.S ∧ arr.R = base.R ∧
      (∀ i j, i < j → u i ≤ p → own i < own j) ∧ (∀ i, base.E * base.S * base.R ≤ own i) ∧
      (∀ e s r, cell base e s r = none → cell arr e s r = none) ∧
      ∀ e s r v, cell base e s r = some v →
        (u ((e * base.S + s) * base.R + r) ≤ p → ∃ x, cell arr e s r = some (.fin x) ∧
          x = 1 + (ref - 1) * u (own ((e * base.S + s) * base.R + r)) ∧ 1 ≤ x ∧ x ≤ ref) ∧
        (¬ u ((e * base.S + s) * base.R + r) ≤ p → cell arr e s r = some v) := by
  constructor
  · unfold corruptDataReader
    rw [hraw]
  have hhit : ∀ i, (maskOf (.fin p) (.fin (u i))).isNan = decide (u i ≤ p) := by
    intro i
    rw [maskOf_eq (hu i).2]
    by_cases h : u i ≤ p
    · simp [h]
    · simp [h, Fl.one_def]
  set own : ℕ → ℕ := fun i => base.E * base.S * base.R +
    ((List.range i).filter fun i => (maskOf (.fin p) (.fin (u i))).isNan).length with hown
  refine ⟨{ rd with scores := .ok (corruptData (.fin p) (.fin ref) u base) }, corruptData (.fin p) (.fin ref) u base, own,
    ?_, ?_, rfl, rfl, rfl, rfl, rfl, rfl, ?_, fun i => Nat.le_add_right _ _, ?_, ?_⟩
  · unfold corruptDataReader
    rw [hraw]
    dsimp only
    rw [hbase]
    dsimp only
    rw [href]
  · exact (rawReader_inv hraw).2 ▸ rfl
  · intro i j hij hi
    rw [hown]
    dsimp only
    apply Nat.add_lt_add_left
    obtain ⟨k, rfl⟩ : ∃ k, j = i + 1 + k := ⟨j - (i + 1), by omega⟩
    rw [List.range_add, List.range_succ, List.filter_append, List.filter_append]
    have : List.filter (fun i => (maskOf (.fin p) (.fin (u i))).isNan) [i] = [i] := by
      simp [hhit, hi]
    rw [this]
    simp only [List.length_append, List.length_singleton]
    omega
  · intro e s r h
    unfold cell at h ⊢
    split at h
    · cases h
    · rename_i hh
      exact dif_neg hh
  · intro e s r v h
    unfold cell at h
    split at h
    · rename_i hh
      have hv := Option.some.inj h
      have hc : cell (corruptData (.fin p) (.fin ref) u base) e s r =
          some ((corruptData (.fin p) (.fin ref) u base).get ⟨e, hh.1⟩ ⟨s, hh.2.1⟩ ⟨r, hh.2.2⟩) :=
        dif_pos (show e < (corruptData (.fin p) (.fin ref) u base).E ∧ s < (corruptData (.fin p) (.fin ref) u base).S ∧
          r < (corruptData (.fin p) (.fin ref) u base).R from hh)
      rw [hc]
      constructor
      · intro hle
        have hx : 0 ≤ u (own ((e * base.S + s) * base.R + r)) ∧ u (own ((e * base.S + s) * base.R + r)) < 1 := hu _
        refine ⟨1 + (ref - 1) * u (own ((e * base.S + s) * base.R + r)), congrArg some ?_, rfl, ?_, ?_⟩
        · unfold corruptData flatIdx
          dsimp only
          rw [if_pos (by rw [hhit]; exact decide_eq_true hle)]
          simp only [Fl.one_def, Fl.fin_sub, Fl.fin_mul, Fl.fin_add, hown]
        · nlinarith [mul_nonneg (sub_nonneg.mpr h1) hx.1]
        · nlinarith [mul_nonneg (sub_nonneg.mpr h1) (sub_nonneg.mpr hx.2.le)]
      · intro hle
        refine congrArg some ?_
        unfold corruptData flatIdx
        dsimp only
        rw [if_neg (by rw [hhit]; simpa using hle)]
        exact hv
    · cases h

/-- **C74.** Without a reference score (or with `None`) the reader is built, but its array raises. -/
theorem C74_no_reference_score (d : Dataset κ K) (rd : Reader κ K) (hraw : rawReader d = .ok rd) (base : Arr3D (Fl K))
    (hbase : rd.scores = .ok base) (p : Fl K) (u : ℕ → K) :
    (d.refScore = none → ∃ rd', corruptDataReader d (some p) u = .ok rd' ∧ rd'.scores = .error .attribute) ∧
    (d.refScore = some none → ∃ rd', corruptDataReader d (some p) u = .ok rd' ∧ rd'.scores = .error .type) := by
  constructor
  · intro h
    refine ⟨{ rd with scores := .error .attribute }, ?_, rfl⟩
    unfold corruptDataReader
    rw [hraw]
    dsimp only
    rw [hbase]
    dsimp only
    rw [h]
  · intro h
    refine ⟨{ rd with scores := .error .type }, ?_, rfl⟩
    unfold corruptDataReader
    rw [hraw]
    dsimp only
    rw [hbase]
    dsimp only
    rw [h]

/-! ## Corrupted subjects -/

theorem numObservers_eq (d : Dataset κ K) (rd : Reader κ K) (hraw : rawReader d = .ok rd) (base : Arr3D (Fl K))
    (hbase : rd.scores = .ok base)
    (hstyle : (∀ dv ∈ d.disVideos, DictStyle dv) ∨ ∀ dv ∈ d.disVideos, SeqStyle dv) :
    numObservers d.disVideos = .ok base.S := by
  obtain ⟨hass, rfl⟩ := rawReader_inv hraw
  replace hbase : opinionScores d.disVideos = .ok base := hbase
  have w := (C01_accepts_iff_wellFormed d).mp hass
  rcases hstyle with hd | hs
  · obtain ⟨h1, h2⟩ := C04_dict_cells d hass hd
    have hs : ∀ dv ∈ d.disVideos, NdarraysSingle dv := by
      by_contra hc
      rw [h2 hc] at hbase
      cases hbase
    obtain ⟨obs, a, ho, ha, -, hS, -⟩ := h1 hs
    rw [hbase] at ha
    cases ha
    rw [numObservers_dict w.diss hd]
    rw [listObservers_dict hd] at ho
    cases ho
    rw [hS]
  · obtain ⟨h1, h2⟩ := C03_seq_cells d hass hs
    have hnd : ∀ dv ∈ d.disVideos, NdarraysSingle dv := by
      by_contra hc
      rw [h2 hc] at hbase
      cases hbase
    obtain ⟨a, ha, -, hS, -⟩ := h1 hnd
    rw [hbase] at ha
    cases ha
    cases hdv : d.disVideos with
    | nil => exact absurd hdv w.diss
    | cons d0 rest =>
      have hm : d0 ∈ d.disVideos := by simp [hdv]
      rw [numObservers_seq (hs d0 hm), hS d0 hm]

/-- the six behaviours -/
def behaviours : List String := ["shuffle", "flip", "min", "mid", "max", "constant"]

/-- **C53.** The reader is refused without a selection, and for a repeated subject, a subject that is not an observer index or
an unknown behaviour. -/
theorem C53_refuses (d : Dataset κ K) (rd : Reader κ K) (hraw : rawReader d = .ok rd) (base : Arr3D (Fl K))
    (hbase : rd.scores = .ok base)
    (hstyle : (∀ dv ∈ d.disVideos, DictStyle dv) ∨ ∀ dv ∈ d.disVideos, SeqStyle dv)
    (kw : CorruptKw K) (dr : Draws K)
    (h : kw.selected = none ∨ (∃ sel, kw.selected = some sel ∧ (¬ sel.Nodup ∨ ∃ x ∈ sel, x < 0 ∨ (base.S : Int) ≤ x)) ∨
      ∃ b, kw.behavior = some b ∧ b ∉ behaviours) :
    corruptReader d kw dr = .error .assertion := by
  have hn := numObservers_eq d rd hraw base hbase hstyle
  unfold corruptReader
  rw [hraw]
  dsimp only
  cases hsel : kw.selected with
  | none => rfl
  | some sel =>
    dsimp only
    by_cases hnd : sel.Nodup
    · rw [if_pos (by rw [List.dedup_eq_self.mpr hnd])]
      rw [hn]
      dsimp only
      by_cases hok : subjectsOk sel base.S = true
      · rw [if_pos hok]
        rw [if_neg]
        rw [subjectsOk_iff] at hok
        rcases h with h | ⟨sel', h, h'⟩ | ⟨b, hb, hb'⟩
        · rw [hsel] at h; cases h
        · rw [hsel] at h
          cases h
          rcases h' with h' | ⟨x, hx, h'⟩
          · exact absurd hnd h'
          · have := hok x hx
            omega
        · unfold CorruptKw.how
          rw [hb]
          exact hb'
      · rw [if_neg hok]
    · rw [if_neg]
      intro hl
      exact hnd (List.dedup_eq_self.mp ((List.dedup_sublist sel).eq_of_length hl))

/-- the reader accepted -/
theorem corrupt_ok (d : Dataset κ K) (rd : Reader κ K) (hraw : rawReader d = .ok rd) (base : Arr3D (Fl K))
    (hbase : rd.scores = .ok base)
    (hstyle : (∀ dv ∈ d.disVideos, DictStyle dv) ∨ ∀ dv ∈ d.disVideos, SeqStyle dv)
    (sel : List ℕ) (hnd : sel.Nodup) (hsel : ∀ s ∈ sel, s < base.S) (kw : CorruptKw K) (dr : Draws K)
    (hk : kw.selected = some (sel.map Nat.cast)) (hb : kw.how ∈ behaviours) :
    corruptReader d kw dr = .ok { rd with scores := corrupt kw dr sel base } := by
  have hn := numObservers_eq d rd hraw base hbase hstyle
  have hnd' : (sel.map (Nat.cast : ℕ → ℤ)).Nodup := hnd.map Nat.cast_injective
  unfold corruptReader
  rw [hraw]
  dsimp only
  rw [hk]
  dsimp only
  rw [if_pos (by rw [List.dedup_eq_self.mpr hnd']), hn]
  dsimp only
  rw [if_pos, if_pos (show kw.how ∈ ["shuffle", "flip", "min", "mid", "max", "constant"] from hb), hbase]
  · dsimp only
    have : (sel.map (Nat.cast : ℕ → ℤ)).map Int.toNat = sel := by
      rw [List.map_map]
      exact (List.map_congr_left fun x _ => by simp).trans (List.map_id _)
    rw [this]
  · rw [subjectsOk_iff]
    intro x hx
    obtain ⟨s, hs, rfl⟩ := List.mem_map.mp hx
    have := hsel s hs
    omega

theorem mem_videosFor (dr : Draws K) (p : Option K) (E n : ℕ) (e : Fin E) :
    e ∈ (videosFor dr (p.map Fl.fin) E n).1 ↔ Hit p dr.u n e := by
  cases p with
  | none => simp [videosFor, Hit]
  | some q => simp [videosFor, Hit, Fl.lt_fin]

theorem videosFor_draws (dr : Draws K) (p : Option K) (E n : ℕ) :
    (videosFor dr (p.map Fl.fin) E n).2 = n + drawsPerSubject p E := by
  cases p <;> simp [videosFor, drawsPerSubject]

theorem videosFor_nodup (dr : Draws K) (p : Option K) (E n : ℕ) : (videosFor dr (p.map Fl.fin) E n).1.Nodup := by
  cases p with
  | none => exact List.nodup_finRange E
  | some q => exact (List.nodup_finRange E).filter _

/-- from the loop to the cells of the array -/
theorem corrupt_cells (step : ℕ) (base : Arr3D (Fl K)) (sel : List ℕ) (hnd : sel.Nodup)
    (F : ℕ → (Fin base.E → Fin base.R → Fl K) → Fin base.E → Fin base.R → Fl K)
    (f : Arr3D (Fl K) × ℕ → ℕ → Arr3D (Fl K) × ℕ)
    (hf : ∀ g n s, f (⟨base.E, base.S, base.R, g⟩, n) s = (⟨base.E, base.S, base.R, colUpd F g n s⟩, n + step)) :
    ∃ arr, (sel.foldl f (base, 0)).1 = arr ∧ arr.E = base.E ∧ arr.S = base.S ∧ arr.R = base.R ∧
      (∀ e s r, s ∉ sel → cell arr e s r = cell base e s r) ∧
      ∀ k s, sel[k]? = some s → ∀ e r (he : e < base.E) (hs : s < base.S) (hr : r < base.R),
        cell arr e s r = some (F (k * step) (fun e r => base.get e ⟨s, hs⟩ r) ⟨e, he⟩ ⟨r, hr⟩) := by
  obtain ⟨g', h1, h2, h3⟩ := fold_cols (S := base.S) step F f hf sel hnd base.get 0
  refine ⟨⟨base.E, base.S, base.R, g'⟩, h1, rfl, rfl, rfl, ?_, ?_⟩
  · intro e s r hs
    unfold cell
    by_cases h : e < base.E ∧ s < base.S ∧ r < base.R
    · rw [dif_pos h, dif_pos h]
      exact congrArg some (h2 _ _ _ hs)
    · rw [dif_neg h, dif_neg h]
  · intro k s hk e r he hs hr
    rw [cell_of_lt (⟨base.E, base.S, base.R, g'⟩ : Arr3D (Fl K)) he hs hr]
    refine congrArg some ?_
    have := h3 k ⟨s, hs⟩ hk ⟨e, he⟩ ⟨r, hr⟩
    rwa [Nat.zero_add] at this

/-- **C53, shuffle** (the default).  Only the selected subjects change, and each of them by a permutation of whole videos
that moves only the videos hit; without a probability it is the permutation drawn for this subject. -/
theorem C53_shuffle (d : Dataset κ K) (rd : Reader κ K) (hraw : rawReader d = .ok rd) (base : Arr3D (Fl K))
    (hbase : rd.scores = .ok base)
    (hstyle : (∀ dv ∈ d.disVideos, DictStyle dv) ∨ ∀ dv ∈ d.disVideos, SeqStyle dv)
    (sel : List ℕ) (hnd : sel.Nodup) (hsel : ∀ s ∈ sel, s < base.S) (p : Option K) (dr : Draws K)
    (b : Option String) (hb : b = none ∨ b = some "shuffle") :
    ∃ rd' arr, corruptReader d ⟨some (sel.map Nat.cast), p.map Fl.fin, b⟩ dr = .ok rd' ∧ rd'.dataset = rd.dataset ∧
      rd'.disVideos = rd.disVideos ∧ rd'.observers = rd.observers ∧ rd'.scores = .ok arr ∧
      arr.E = base.E ∧ arr.S = base.S ∧ arr.R = base.R ∧
      (∀ e s r, s ∉ sel → cell arr e s r = cell base e s r) ∧
      ∀ k s, sel[k]? = some s → ∃ σ : Equiv.Perm (Fin base.E),
        (∀ e : Fin base.E, ¬ Hit p dr.u (k * (drawsPerSubject p base.E + 1)) e → σ e = e) ∧
        (p = none → σ = dr.perm k base.E) ∧
        ∀ (e : Fin base.E) r, cell arr e s r = cell base (σ e) s r := by
  set kw : CorruptKw K := ⟨some (sel.map Nat.cast), p.map Fl.fin, b⟩ with hkw
  have hhow : kw.how = "shuffle" := by
    rcases hb with rfl | rfl <;> rfl
  have hok := corrupt_ok d rd hraw base hbase hstyle sel hnd hsel kw dr rfl (by rw [hhow]; simp [behaviours])
  set vs : ℕ → List (Fin base.E) := fun n => (videosFor dr (p.map Fl.fin) base.E n).1 with hvs
  set F : ℕ → (Fin base.E → Fin base.R → Fl K) → Fin base.E → Fin base.R → Fl K := fun n col e r =>
    if e ∈ vs n then col (permuted (vs n) (dr.perm (n + drawsPerSubject p base.E) (vs n).length) e) r else col e r with hF
  obtain ⟨arr, harr, e1, e2, e3, h1, h2⟩ := corrupt_cells (drawsPerSubject p base.E + 1) base sel hnd F
    (corruptOne kw dr .nan .nan) (by
      intro g n s
      unfold corruptOne
      rw [hhow]
      simp only [setRows, hkw]
      rw [videosFor_draws]
      refine Prod.ext (arr3D_ext ?_) (by dsimp only; omega)
      intro e t r
      unfold colUpd
      by_cases ht : t.val = s
      · by_cases he : e ∈ (videosFor dr (p.map Fl.fin) base.E n).1
        · rw [if_pos ⟨ht, he⟩, if_pos ht, hF]
          dsimp only
          rw [if_pos he]
        · rw [if_neg (fun h => he h.2), if_pos ht, hF]
          dsimp only
          rw [if_neg he]
      · simp only [ht, false_and, if_false])
  refine ⟨_, arr, hok, rfl, rfl, rfl, ?_, e1, e2, e3, h1, ?_⟩
  · show corrupt kw dr sel base = .ok arr
    unfold corrupt
    rw [if_pos hhow, harr]
  · intro k s hk
    have hs := hsel s (List.mem_of_getElem? hk)
    set n := k * (drawsPerSubject p base.E + 1) with hn
    set τ := dr.perm (n + drawsPerSubject p base.E) (vs n).length with hτ
    refine ⟨Equiv.ofBijective _ ((permuted_injective (videosFor_nodup dr p base.E n) τ).bijective_of_finite), ?_, ?_, ?_⟩
    · intro e he
      exact permuted_not_mem (fun h => he ((mem_videosFor dr p base.E n e).mp h))
    · rintro rfl
      ext e
      have hk' : n = k := by simp [hn, drawsPerSubject]
      have := permuted_all (fun j => dr.perm k j) e
      rw [← this]
      simp only [Equiv.ofBijective_apply, hτ, hvs, videosFor, Option.map_none, drawsPerSubject, hk']
      rfl
    · intro e r
      rw [Equiv.ofBijective_apply]
      by_cases hr : r < base.R
      · rw [h2 k s hk e r e.2 hs hr, cell_of_lt base (permuted (vs n) τ e).2 hs hr]
        refine congrArg some ?_
        simp only [hF]
        by_cases he : e ∈ vs n
        · rw [if_pos he]
        · rw [if_neg he, permuted_not_mem he]
      · rw [cell_none _ (by rintro ⟨-, -, h⟩; exact hr (e3 ▸ h)), cell_none _ (by rintro ⟨-, -, h⟩; exact hr h)]

/-- **C53, flip.** Only the selected subjects change; their votes for the videos hit are mirrored in the range of all votes,
and missing votes stay missing. -/
theorem C53_flip (d : Dataset κ K) (rd : Reader κ K) (hraw : rawReader d = .ok rd) (base : Arr3D (Fl K))
    (hbase : rd.scores = .ok base)
    (hstyle : (∀ dv ∈ d.disVideos, DictStyle dv) ∨ ∀ dv ∈ d.disVideos, SeqStyle dv)
    (hv : VotesOrMissing base) (lo hi : K) (hr : VoteRange base lo hi)
    (sel : List ℕ) (hnd : sel.Nodup) (hsel : ∀ s ∈ sel, s < base.S) (p : Option K) (dr : Draws K) :
    ∃ rd' arr, corruptReader d ⟨some (sel.map Nat.cast), p.map Fl.fin, some "flip"⟩ dr = .ok rd' ∧
      rd'.dataset = rd.dataset ∧ rd'.disVideos = rd.disVideos ∧ rd'.observers = rd.observers ∧ rd'.scores = .ok arr ∧
      arr.E = base.E ∧ arr.S = base.S ∧ arr.R = base.R ∧
      (∀ e s r, s ∉ sel → cell arr e s r = cell base e s r) ∧
      ∀ k s, sel[k]? = some s → ∀ e r,
        (Hit p dr.u (k * drawsPerSubject p base.E) e → cell arr e s r = (cell base e s r).map (mirror lo hi)) ∧
        (¬ Hit p dr.u (k * drawsPerSubject p base.E) e → cell arr e s r = cell base e s r) := by
  set kw : CorruptKw K := ⟨some (sel.map Nat.cast), p.map Fl.fin, some "flip"⟩ with hkw
  have hhow : kw.how = "flip" := rfl
  have hok := corrupt_ok d rd hraw base hbase hstyle sel hnd hsel kw dr rfl (by rw [hhow]; simp [behaviours])
  obtain ⟨x1, x2⟩ := extremum_spec hv hr
  set F : ℕ → (Fin base.E → Fin base.R → Fl K) → Fin base.E → Fin base.R → Fl K := fun n col e r =>
    if e ∈ (videosFor dr (p.map Fl.fin) base.E n).1 then .fin hi + .fin lo - col e r else col e r with hF
  obtain ⟨arr, harr, e1, e2, e3, h1, h2⟩ := corrupt_cells (drawsPerSubject p base.E) base sel hnd F
    (corruptOne kw dr (.fin lo) (.fin hi)) (by
      intro g n s
      unfold corruptOne
      rw [hhow]
      simp only [setRows, hkw]
      rw [videosFor_draws]
      refine Prod.ext (arr3D_ext ?_) rfl
      intro e t r
      unfold colUpd
      by_cases ht : t.val = s
      · by_cases he : e ∈ (videosFor dr (p.map Fl.fin) base.E n).1
        · rw [if_pos ⟨ht, he⟩, if_pos ht, hF]
          dsimp only
          rw [if_pos he]
        · rw [if_neg (fun h => he h.2), if_pos ht, hF]
          dsimp only
          rw [if_neg he]
      · simp only [ht, false_and, if_false])
  refine ⟨_, arr, hok, rfl, rfl, rfl, ?_, e1, e2, e3, h1, ?_⟩
  · show corrupt kw dr sel base = .ok arr
    unfold corrupt
    rw [if_neg (by rw [hhow]; decide), x1, x2]
    dsimp only
    rw [harr]
  · intro k s hk e r
    have hs := hsel s (List.mem_of_getElem? hk)
    by_cases hin : e < base.E ∧ r < base.R
    · obtain ⟨he, hr'⟩ := hin
      have hc := h2 k s hk e r he hs hr'
      have hb := cell_of_lt base he hs hr'
      rw [hc, hb]
      have hm := mem_videosFor dr p base.E (k * drawsPerSubject p base.E) ⟨e, he⟩
      constructor
      · intro hh
        simp only [hF, if_pos (hm.mpr hh), Option.map_some]
        refine congrArg some ?_
        rcases hv e s r _ hb with h0 | ⟨y, h0⟩
        · rw [h0]; rfl
        · rw [h0]; rfl
      · intro hh
        simp only [hF, if_neg (fun h => hh (hm.mp h))]
    · have hn1 : cell arr e s r = none := cell_none _ (by rw [e1, e2, e3]; exact fun h => hin ⟨h.1, h.2.2⟩)
      have hn2 : cell base e s r = none := cell_none _ (fun h => hin ⟨h.1, h.2.2⟩)
      rw [hn1, hn2]
      exact ⟨fun _ => rfl, fun _ => rfl⟩

/-- **C53, min, mid, max and constant.** Only the selected subjects change; all their cells for the videos hit, missing
votes included, become one score which lies in the range of the votes. -/
theorem C53_overwrite (d : Dataset κ K) (rd : Reader κ K) (hraw : rawReader d = .ok rd) (base : Arr3D (Fl K))
    (hbase : rd.scores = .ok base)
    (hstyle : (∀ dv ∈ d.disVideos, DictStyle dv) ∨ ∀ dv ∈ d.disVideos, SeqStyle dv)
    (hv : VotesOrMissing base) (lo hi : K) (hr : VoteRange base lo hi)
    (sel : List ℕ) (hnd : sel.Nodup) (hsel : ∀ s ∈ sel, s < base.S) (p : Option K) (dr : Draws K)
    (hu : ∀ n, 0 ≤ dr.u n ∧ dr.u n < 1) (b : String) (hb : b ∈ ["min", "mid", "max", "constant"]) :
    ∃ rd' arr, corruptReader d ⟨some (sel.map Nat.cast), p.map Fl.fin, some b⟩ dr = .ok rd' ∧
      rd'.dataset = rd.dataset ∧ rd'.disVideos = rd.disVideos ∧ rd'.observers = rd.observers ∧ rd'.scores = .ok arr ∧
      arr.E = base.E ∧ arr.S = base.S ∧ arr.R = base.R ∧
      (∀ e s r, s ∉ sel → cell arr e s r = cell base e s r) ∧
      ∀ k s, sel[k]? = some s → ∀ off, off = k * (scoreDraws b + drawsPerSubject p base.E) → ∃ c : K,
        c = level b lo hi (dr.u off) ∧ lo ≤ c ∧ c ≤ hi ∧ ∀ e r v, cell base e s r = some v →
        (Hit p dr.u (off + scoreDraws b) e → cell arr e s r = some (.fin c)) ∧
        (¬ Hit p dr.u (off + scoreDraws b) e → cell arr e s r = some v) := by
  set kw : CorruptKw K := ⟨some (sel.map Nat.cast), p.map Fl.fin, some b⟩ with hkw
  have hhow : kw.how = b := rfl
  have hok := corrupt_ok d rd hraw base hbase hstyle sel hnd hsel kw dr rfl (by
    rw [hhow]; simp only [behaviours, List.mem_cons] at hb ⊢; tauto)
  obtain ⟨x1, x2⟩ := extremum_spec hv hr
  set F : ℕ → (Fin base.E → Fin base.R → Fl K) → Fin base.E → Fin base.R → Fl K := fun n col e r =>
    if e ∈ (videosFor dr (p.map Fl.fin) base.E (n + scoreDraws b)).1 then .fin (level b lo hi (dr.u n)) else col e r with hF
  obtain ⟨arr, harr, e1, e2, e3, h1, h2⟩ := corrupt_cells (scoreDraws b + drawsPerSubject p base.E) base sel hnd F
    (corruptOne kw dr (.fin lo) (.fin hi)) (by
      intro g n s
      have hone : corruptOne kw dr (.fin lo) (.fin hi) (⟨base.E, base.S, base.R, g⟩, n) s =
          (setRows ⟨base.E, base.S, base.R, g⟩ (videosFor dr (p.map Fl.fin) base.E (n + scoreDraws b)).1 s
            fun _ _ _ => .fin (level b lo hi (dr.u n)), (videosFor dr (p.map Fl.fin) base.E (n + scoreDraws b)).2) := by
        unfold corruptOne
        rw [hhow]
        simp only [List.mem_cons, List.not_mem_nil, or_false] at hb
        rcases hb with rfl | rfl | rfl | rfl
        · simp [scoreDraws, level, hkw]
        · have h2 : ((.fin (lo + hi) : Fl K) / ((2 : ℕ) : Fl K)) = .fin ((lo + hi) / 2) := by
            rw [Fl.natCast_def, Fl.fin_div (by simp)]
            norm_num
          simp [scoreDraws, level, hkw, -Nat.cast_ofNat, h2]
        · simp [scoreDraws, level, hkw]
        · simp [scoreDraws, level, hkw]
      rw [hone, videosFor_draws]
      unfold setRows
      refine Prod.ext (arr3D_ext ?_) (by dsimp only; omega)
      intro e t r
      unfold colUpd
      by_cases ht : t.val = s
      · by_cases he : e ∈ (videosFor dr (p.map Fl.fin) base.E (n + scoreDraws b)).1
        · rw [if_pos ⟨ht, he⟩, if_pos ht, hF]
          dsimp only
          rw [if_pos he]
        · rw [if_neg (fun h => he h.2), if_pos ht, hF]
          dsimp only
          rw [if_neg he]
      · simp only [ht, false_and, if_false])
  have hlh : lo ≤ hi := by
    obtain ⟨⟨e, s, r, h⟩, -, h'⟩ := hr
    exact (h' e s r lo h).2
  refine ⟨_, arr, hok, rfl, rfl, rfl, ?_, e1, e2, e3, h1, ?_⟩
  · show corrupt kw dr sel base = .ok arr
    unfold corrupt
    rw [if_neg (by rw [hhow]; rintro rfl; simp at hb), x1, x2]
    dsimp only
    rw [harr]
  · rintro k s hk off rfl
    have hs := hsel s (List.mem_of_getElem? hk)
    set off := k * (scoreDraws b + drawsPerSubject p base.E) with hoff
    have hlev : lo ≤ level b lo hi (dr.u off) ∧ level b lo hi (dr.u off) ≤ hi := by
      have h0 := hu off
      have h3 := mul_nonneg (sub_nonneg.mpr hlh) h0.1
      have h4 := mul_nonneg (sub_nonneg.mpr hlh) (sub_nonneg.mpr h0.2.le)
      unfold level
      split
      · exact ⟨le_rfl, hlh⟩
      · split
        · constructor <;> linarith
        · split
          · exact ⟨hlh, le_rfl⟩
          · constructor <;> linarith
    refine ⟨_, rfl, hlev.1, hlev.2, ?_⟩
    intro e r v hcv
    have hin : e < base.E ∧ s < base.S ∧ r < base.R := by
      by_contra hc
      rw [cell_none _ hc] at hcv
      cases hcv
    have hc := h2 k s hk e r hin.1 hs hin.2.2
    have hb' := cell_of_lt base hin.1 hs hin.2.2
    rw [hb'] at hcv
    have hm := mem_videosFor dr p base.E (off + scoreDraws b) ⟨e, hin.1⟩
    rw [hc]
    constructor
    · intro hh
      simp only [hF, ← hoff, if_pos (hm.mpr hh)]
    · intro hh
      simp only [hF, ← hoff, if_neg (fun h => hh (hm.mp h))]
      exact hcv

/-- **C53, flipping twice.** If the votes of one dataset are the flipped votes of another one, and the flip did not change
the range of the votes, flipping the same subjects again (without a probability) gives the original votes.

Missing: if the range changes, the second flip uses another mirror and does not undo the first (`C53_flip_twice_refuted`). -/
theorem C53_flip_twice_partial (d d' : Dataset κ K) (rd rd' : Reader κ K) (hraw : rawReader d = .ok rd)
    (hraw' : rawReader d' = .ok rd') (base : Arr3D (Fl K)) (hbase : rd.scores = .ok base)
    (hstyle : (∀ dv ∈ d.disVideos, DictStyle dv) ∨ ∀ dv ∈ d.disVideos, SeqStyle dv)
    (hstyle' : (∀ dv ∈ d'.disVideos, DictStyle dv) ∨ ∀ dv ∈ d'.disVideos, SeqStyle dv)
    (hv : VotesOrMissing base) (lo hi : K) (hr : VoteRange base lo hi)
    (sel : List ℕ) (hnd : sel.Nodup) (hsel : ∀ s ∈ sel, s < base.S) (dr dr' : Draws K)
    (fl fl' : Reader κ K) (arr arr' : Arr3D (Fl K))
    (h1 : corruptReader d ⟨some (sel.map Nat.cast), none, some "flip"⟩ dr = .ok fl) (hs1 : fl.scores = .ok arr)
    (hsame : rd'.scores = .ok arr) (hr' : VoteRange arr lo hi)
    (h2 : corruptReader d' ⟨some (sel.map Nat.cast), none, some "flip"⟩ dr' = .ok fl') (hs2 : fl'.scores = .ok arr') :
    arr'.E = base.E ∧ arr'.S = base.S ∧ arr'.R = base.R ∧ ∀ e s r, cell arr' e s r = cell base e s r := by
  obtain ⟨x, a, ha, -, -, -, hsa, aE, aS, aR, a1, a2⟩ :=
    C53_flip d rd hraw base hbase hstyle hv lo hi hr sel hnd hsel none dr
  rw [Option.map_none, h1] at ha
  cases ha
  rw [hs1] at hsa
  cases hsa
  have hva : VotesOrMissing arr := by
    intro e s r v hvv
    by_cases hs : s ∈ sel
    · obtain ⟨k, hk⟩ := List.mem_iff_getElem?.mp hs
      rw [(a2 k s hk e r).1 (by simp [Hit])] at hvv
      cases hb : cell base e s r with
      | none => rw [hb] at hvv; cases hvv
      | some w =>
        rw [hb] at hvv
        have := Option.some.inj hvv
        subst this
        cases w <;> simp [mirror]
    · rw [a1 e s r hs] at hvv
      exact hv e s r v hvv
  obtain ⟨y, b, hb, -, -, -, hsb, bE, bS, bR, b1, b2⟩ :=
    C53_flip d' rd' hraw' arr hsame hstyle' hva lo hi hr' sel hnd (aS ▸ hsel) none dr'
  rw [Option.map_none, h2] at hb
  cases hb
  rw [hs2] at hsb
  cases hsb
  refine ⟨bE.trans aE, bS.trans aS, bR.trans aR, ?_⟩
  intro e s r
  by_cases hs : s ∈ sel
  · obtain ⟨k, hk⟩ := List.mem_iff_getElem?.mp hs
    rw [(b2 k s hk e r).1 (by simp [Hit]), (a2 k s hk e r).1 (by simp [Hit])]
    cases hb : cell base e s r with
    | none => rfl
    | some w =>
      rcases hv e s r w hb with rfl | ⟨z, rfl⟩
      · rfl
      · simp [mirror]
  · rw [b1 e s r hs, a1 e s r hs]

/-- The range is not changed if all subjects are flipped for all videos. -/
theorem C53_flip_all_keeps_range (d : Dataset κ K) (rd : Reader κ K) (hraw : rawReader d = .ok rd)
    (base : Arr3D (Fl K)) (hbase : rd.scores = .ok base)
    (hstyle : (∀ dv ∈ d.disVideos, DictStyle dv) ∨ ∀ dv ∈ d.disVideos, SeqStyle dv)
    (hv : VotesOrMissing base) (lo hi : K) (hr : VoteRange base lo hi)
    (sel : List ℕ) (hnd : sel.Nodup) (hsel : ∀ s, s ∈ sel ↔ s < base.S) (dr : Draws K)
    (fl : Reader κ K) (arr : Arr3D (Fl K))
    (h1 : corruptReader d ⟨some (sel.map Nat.cast), none, some "flip"⟩ dr = .ok fl) (hs1 : fl.scores = .ok arr) :
    VoteRange arr lo hi := by
  obtain ⟨x, a, ha, -, -, -, hsa, aE, aS, aR, a1, a2⟩ :=
    C53_flip d rd hraw base hbase hstyle hv lo hi hr sel hnd (fun s h => (hsel s).mp h) none dr
  rw [Option.map_none, h1] at ha
  cases ha
  rw [hs1] at hsa
  cases hsa
  have hcell : ∀ e s r, cell arr e s r = (cell base e s r).map (mirror lo hi) := by
    intro e s r
    by_cases hs : s ∈ sel
    · obtain ⟨k, hk⟩ := List.mem_iff_getElem?.mp hs
      exact (a2 k s hk e r).1 (by simp [Hit])
    · rw [a1 e s r hs, cell_none base (fun h => hs ((hsel s).mpr h.2.1))]
      rfl
  obtain ⟨⟨e1, s1, r1, m1⟩, ⟨e2, s2, r2, m2⟩, m3⟩ := hr
  refine ⟨⟨e2, s2, r2, by rw [hcell, m2]; simp [mirror]⟩, ⟨e1, s1, r1, by rw [hcell, m1]; simp [mirror]⟩, ?_⟩
  intro e s r x hx
  rw [hcell] at hx
  cases hb : cell base e s r with
  | none => rw [hb] at hx; cases hx
  | some w =>
    rw [hb] at hx
    have hx := Option.some.inj hx
    cases w with
    | fin y =>
      have hxy : hi + lo - y = x := Fl.fin.inj hx
      have := m3 e s r y hb
      constructor <;> linarith
    | nan => cases hx
    | pinf => cases hx
    | ninf => cases hx

/-! ## Concrete cases -/

/-- two videos, two observers: observer 0 votes 1 and 2, observer 1 votes 3 and 5 -/
def flipDs : Dataset String ℚ :=
  { refVideos := [⟨0, "r", []⟩]
    disVideos := [⟨0, 0, "a", some (.seq false [.one (.fin 1), .one (.fin 3)]), none, none, []⟩,
                  ⟨0, 1, "b", some (.seq false [.one (.fin 2), .one (.fin 5)]), none, none, []⟩]
    refScore := some (some (.fin 5)), datasetName := none, attrs := [] }

/-- the same dataset after flipping observer 0 -/
def flippedDs : Dataset String ℚ :=
  { refVideos := [⟨0, "r", []⟩]
    disVideos := [⟨0, 0, "a", some (.seq false [.one (.fin 5), .one (.fin 3)]), none, none, []⟩,
                  ⟨0, 1, "b", some (.seq false [.one (.fin 4), .one (.fin 5)]), none, none, []⟩]
    refScore := some (some (.fin 5)), datasetName := none, attrs := [] }

/-- no randomness needed -/
def noDraws : Draws ℚ := ⟨fun _ => 0, fun _ _ => 1⟩

/-- **C53, flipping twice, refuted.** Observer 0 voted 1 and 2; flipped in the range [1,5] this becomes 5 and 4.  Now the
range is [3,5], so flipping again gives 3 and 4 instead of 1 and 2. -/
theorem C53_flip_twice_refuted : ∃ fl arr rd' fl' arr',
    corruptReader flipDs ⟨some [0], none, some "flip"⟩ noDraws = .ok fl ∧ fl.scores = .ok arr ∧
    rawReader flippedDs = .ok rd' ∧
    (∃ b, rd'.scores = .ok b ∧ (b.E, b.S, b.R) = (arr.E, arr.S, arr.R) ∧
      ∀ e ∈ [0, 1], ∀ s ∈ [0, 1], cell b e s 0 = cell arr e s 0) ∧
    corruptReader flippedDs ⟨some [0], none, some "flip"⟩ noDraws = .ok fl' ∧ fl'.scores = .ok arr' ∧
    cell arr 0 0 0 = some (.fin 5) ∧ cell arr 1 0 0 = some (.fin 4) ∧
    cell arr' 0 0 0 = some (.fin 3) ∧ cell arr' 1 0 0 = some (.fin 4) := by
  obtain ⟨b0, h0, -⟩ := okWith_elim (x := opinionScores flipDs.disVideos) (P := fun _ => true) (by decide +kernel)
  obtain ⟨b1, h1, hP1⟩ := okWith_elim (x := opinionScores flippedDs.disVideos)
    (P := fun b => decide ((b.E, b.S, b.R) = (2, 2, 1) ∧ cell b 0 0 0 = some (.fin 5) ∧ cell b 0 1 0 = some (.fin 3) ∧
      cell b 1 0 0 = some (.fin 4) ∧ cell b 1 1 0 = some (.fin 5))) (by decide +kernel)
  obtain ⟨fl, hfl, hPf⟩ := okWith_elim (x := corruptReader flipDs ⟨some [0], none, some "flip"⟩ noDraws)
    (P := fun fl => okWith fl.scores fun b => decide ((b.E, b.S, b.R) = (2, 2, 1) ∧ cell b 0 0 0 = some (.fin 5) ∧
      cell b 0 1 0 = some (.fin 3) ∧ cell b 1 0 0 = some (.fin 4) ∧ cell b 1 1 0 = some (.fin 5))) (by decide +kernel)
  obtain ⟨fl', hfl', hPf'⟩ := okWith_elim (x := corruptReader flippedDs ⟨some [0], none, some "flip"⟩ noDraws)
    (P := fun fl => okWith fl.scores fun b => decide (cell b 0 0 0 = some (.fin 3) ∧ cell b 1 0 0 = some (.fin 4)))
    (by decide +kernel)
  obtain ⟨arr, ha, hPa⟩ := okWith_elim hPf
  obtain ⟨arr', ha', hPa'⟩ := okWith_elim hPf'
  obtain ⟨p0, p1, p2, p3, p4⟩ := of_decide_eq_true hPa
  obtain ⟨q0, q1, q2, q3, q4⟩ := of_decide_eq_true hP1
  obtain ⟨r1, r2⟩ := of_decide_eq_true hPa'
  refine ⟨fl, arr, _, fl', arr', hfl, ha, rfl, ⟨b1, h1, by rw [p0, q0], ?_⟩, hfl', ha', p1, p3, r1, r2⟩
  intro e he s hs
  simp only [List.mem_cons, List.not_mem_nil, or_false] at he hs
  rcases he with rfl | rfl <;> rcases hs with rfl | rfl
  · rw [p1, q1]
  · rw [p2, q2]
  · rw [p3, q3]
  · rw [p4, q4]

/-- the hypotheses of the theorems on corrupted subjects hold for `flipDs`: it is accepted, its array has the range [1,5]
and the subject 0 can be selected -/
example : ∃ rd base, rawReader flipDs = .ok rd ∧ rd.scores = .ok base ∧
    (∀ dv ∈ flipDs.disVideos, SeqStyle dv) ∧ VotesOrMissing base ∧ VoteRange base 1 5 ∧ 0 < base.S := by
  obtain ⟨b0, h0, hP⟩ := okWith_elim (x := opinionScores flipDs.disVideos)
    (P := fun b => decide ((b.E, b.S, b.R) = (2, 2, 1) ∧ cellsOf b = [.fin 1, .fin 3, .fin 2, .fin 5]))
    (by decide +kernel)
  obtain ⟨p0, p1⟩ := of_decide_eq_true hP
  have hm : ∀ v, (∃ e s r, cell b0 e s r = some v) ↔ v ∈ [Fl.fin (1 : ℚ), .fin 3, .fin 2, .fin 5] := by
    intro v
    rw [← p1, mem_cellsOf]
  refine ⟨_, b0, rfl, h0, ?_, ?_, ⟨(hm _).mpr (by simp), (hm _).mpr (by simp), ?_⟩, ?_⟩
  · intro dv hdv
    simp only [flipDs, List.mem_cons, List.not_mem_nil, or_false] at hdv
    rcases hdv with rfl | rfl <;> exact ⟨_, _, rfl⟩
  · intro e s r v hv
    have := (hm v).mp ⟨e, s, r, hv⟩
    simp only [List.mem_cons, List.not_mem_nil, or_false] at this
    rcases this with rfl | rfl | rfl | rfl <;> exact Or.inr ⟨_, rfl⟩
  · intro e s r x hx
    have := (hm _).mp ⟨e, s, r, hx⟩
    simp only [List.mem_cons, List.not_mem_nil, or_false, Fl.fin.injEq] at this
    rcases this with rfl | rfl | rfl | rfl <;> norm_num
  · have := congrArg (fun x => x.2.1) p0
    simp only at this
    omega

/-- missing data: with draws 0, 1/2, 1/2, 1/2 and probability 1/4 exactly the first cell is removed -/
example : ∃ rd arr, missingReader flipDs (some (.fin (1 / 4))) (fun n => if n = 0 then 0 else 1 / 2) = .ok rd ∧
    rd.scores = .ok arr ∧ cellsOf arr = [.nan, .fin 3, .fin 2, .fin 5] := by
  obtain ⟨rd, h, hP⟩ := okWith_elim
    (x := missingReader flipDs (some (.fin (1 / 4))) (fun n => if n = 0 then 0 else 1 / 2))
    (P := fun rd => okWith rd.scores fun b => decide (cellsOf b = [.nan, .fin 3, .fin 2, .fin 5])) (by decide +kernel)
  obtain ⟨arr, ha, hPa⟩ := okWith_elim hP
  exact ⟨rd, arr, h, ha, of_decide_eq_true hPa⟩

/-- corrupted data: the first cell is hit and gets 1 + 4 * 1/2 -/
example : ∃ rd arr, corruptDataReader flipDs (some (.fin (1 / 4))) (fun n => if n = 0 then 0 else 1 / 2) = .ok rd ∧
    rd.scores = .ok arr ∧ cellsOf arr = [.fin 3, .fin 3, .fin 2, .fin 5] := by
  obtain ⟨rd, h, hP⟩ := okWith_elim
    (x := corruptDataReader flipDs (some (.fin (1 / 4))) (fun n => if n = 0 then 0 else 1 / 2))
    (P := fun rd => okWith rd.scores fun b => decide (cellsOf b = [.fin 3, .fin 3, .fin 2, .fin 5])) (by decide +kernel)
  obtain ⟨arr, ha, hPa⟩ := okWith_elim hP
  exact ⟨rd, arr, h, ha, of_decide_eq_true hPa⟩

end Sureal.Props
