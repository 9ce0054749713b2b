import Verif.Lemmas.Scale
import Verif.Props.Pareto
import Verif.Props.ApComplete
import Verif.Props.Pc
import Verif.Props.Dscore
/-!
# C144: scores on the rating scale

Means of votes are on the scale of the votes.  Models that shift votes or correct for bias can leave the scale, but by no more than its width.
-/
set_option linter.unusedSectionVars false
namespace Sureal.Props
open Sureal Spec Ap

section models
variable {κ : Type} [DecidableEq κ] {lo hi : ℝ} {rd : Reader κ ℝ} {a : Arr3D (Fl ℝ)} {o : Opts ℝ} {res : Result κ ℝ}

theorem mos_scale (h1 : o.normalizeFinal = none) (h2 : o.transformFinal = none) (hz : o.zscoreMode = none) (ha : rd.scores = .ok a) (h : VotesIn lo hi a)
    (hr : runModeling mosRunModeling rd o = .ok res ∨ runModeling biasremvRunModeling rd o = .ok res) :
    (o.dscoreMode = none → o.biasOffset = none → ∀ x ∈ res.qualityScores, InScale lo hi x) ∧
    ((o.dscoreMode = none ∨ o.biasOffset = none ∧ ∀ x, rd.dataset.refScore = some (some x) → InScale lo hi x) →
      ∀ x ∈ res.qualityScores, InWideScale lo hi x) := by
  have key : ∃ p : Prep ℝ, preprocess rd o = .ok p ∧ res.qualityScores = List.ofFn (meanAlongS p.arr.get) := by
    rcases hr with hr | hr
    · obtain ⟨res0, h0, hq⟩ := run_scores hr
      rw [post_plain h1 h2] at hq
      unfold mosRunModeling at h0
      split at h0
      · cases h0
      · rename_i p hp
        cases h0
        refine ⟨p, hp, hq.trans ?_⟩
        unfold Result.withRejection
        split <;> rfl
    · obtain ⟨res0, h0, hq⟩ := run_scores hr
      rw [post_plain h1 h2] at hq
      unfold biasremvRunModeling at h0
      split at h0
      · cases h0
      · rename_i p hp
        split at h0
        · cases h0
        · cases h0
          refine ⟨p, hp, hq.trans ?_⟩
          unfold Result.withRejection
          split <;> rfl
  obtain ⟨p, hp, hq⟩ := key
  obtain ⟨k1, k2⟩ := Scale.preprocess_in hp ha hz h
  rw [hq]
  refine ⟨fun hd hb x hx => ?_, fun hd x hx => ?_⟩
  · obtain ⟨e, rfl⟩ := (List.mem_ofFn' _ _).mp hx
    exact Scale.video_in (k1 hd hb) e
  · obtain ⟨e, rfl⟩ := (List.mem_ofFn' _ _).mp hx
    exact Scale.video_in (k2 hd) e

/-- **C144** (partial: models of means only).  If all votes are on a scale, then the scores of MOS, and of MOS after observers were rejected (the model
of BT.500 among them), are on this scale.  The scores of models that average differential scores, or votes corrected for bias (the model of P.913 among
them), leave it by at most its width; for differential scores, the score of the reference videos must be on the scale.  Missing: that the
latter stay on the scale, which is refuted by `C144_bias_refuted` and `C144_dscore_refuted`. -/
theorem C144_models_partial {T : String} {run : Reader κ ℝ → Py (Result κ ℝ)} (hT : (T, run) ∈ runsByName) (ha : rd.scores = .ok a)
    (h : VotesIn lo hi a) (hr : run rd = .ok res) :
    (T ∈ averaging → ∀ x ∈ res.qualityScores, InScale lo hi x) ∧
    (T ∈ shifting → (∀ x, rd.dataset.refScore = some (some x) → InScale lo hi x) → ∀ x ∈ res.qualityScores, InWideScale lo hi x) := by
  simp only [runsByName, List.mem_cons, Prod.mk.injEq, List.not_mem_nil, or_false] at hT
  have no : ∀ {s : String} {l : List String} {P : Prop}, s ∉ l → s ∈ l → P := fun h1 h2 => absurd h2 h1
  rcases hT with ⟨rfl, rfl⟩ | ⟨rfl, rfl⟩ | ⟨rfl, rfl⟩ | ⟨rfl, rfl⟩ | ⟨rfl, rfl⟩ | ⟨rfl, rfl⟩ | ⟨rfl, rfl⟩ | ⟨rfl, rfl⟩ | ⟨rfl, rfl⟩ |
    ⟨rfl, rfl⟩ | ⟨rfl, rfl⟩ | ⟨rfl, rfl⟩ | ⟨rfl, rfl⟩ | ⟨rfl, rfl⟩ | ⟨rfl, rfl⟩ | ⟨rfl, rfl⟩ | ⟨rfl, rfl⟩ | ⟨rfl, rfl⟩ | ⟨rfl, rfl⟩ |
    ⟨rfl, rfl⟩ | ⟨rfl, rfl⟩ | ⟨rfl, rfl⟩ | ⟨rfl, rfl⟩ | ⟨rfl, rfl⟩ | ⟨rfl, rfl⟩ | ⟨rfl, rfl⟩ | ⟨rfl, rfl⟩
  all_goals refine ⟨fun hm => ?_, fun hm hs => ?_⟩
  all_goals first
    | exact no (by decide +kernel) hm
    | exact (mos_scale rfl rfl rfl ha h (Or.inl hr)).1 rfl rfl
    | exact (mos_scale rfl rfl rfl ha h (Or.inl hr)).2 (Or.inr ⟨rfl, hs⟩)
    | exact (mos_scale rfl rfl rfl ha h (Or.inr hr)).2 (Or.inl rfl)

end models

section program
open Routine Format Main
variable {κ : Type} [LinearOrder κ] {d : Dataset κ ℝ} {ppf : Fl ℝ → ℕ → Fl ℝ} {other : ModelClass → Reader κ ℝ → Py (Result κ ℝ)}
  {pc : List ModelClass → Py (Output (String ⊕ κ) (Fl ℝ))} {path : List Char} {readPy readJson : Py (Dataset κ ℝ)} {lo hi : ℝ}

/-- **C144** (partial, see `C144_models_partial`), for the scores the program writes -/
theorem C144_program_partial {models : List String} (hnd : models.Nodup)
    (hm : ∀ T ∈ models, ∃ run, (T, run) ∈ (runsByName : List (String × (Reader κ ℝ → Py (Result κ ℝ))))) {out : Output (String ⊕ κ) (Fl ℝ)}
    (hout : main ppf other pc path readPy readJson models = .ok out) (hl : Loads path readPy readJson d) (h : Readable d)
    (hv : ∀ dv ∈ d.disVideos, ∀ x ∈ numbersOf dv, lo ≤ x ∧ x ≤ hi) {T : String} (hT : T ∈ models) {i : ℕ} {c : Cell (Fl ℝ)}
    (hcell : numberIn out.disVideos i T "quality_score" = some c) :
    ∃ x, c = .one x ∧ (T ∈ averaging → InScale lo hi x) ∧
      (T ∈ shifting → (∀ y, d.refScore = some (some y) → InScale lo hi y) → InWideScale lo hi x) := by
  obtain ⟨d', rd, hl', hrd, hres⟩ := C117_any hnd (List.ne_nil_of_mem hT) hm hout
  have hdd : d' = d := by
    have h1 := (loads_read hl).2
    have h2 := (loads_read hl').2
    rw [h1] at h2
    cases h2
    rfl
  subst hdd
  obtain ⟨rd', a, hrd', hdv, ha, hE, hc, hp, -⟩ := reads h
  rw [hrd] at hrd'
  cases hrd'
  have hds : rd.dataset = d' := by
    obtain ⟨-, rfl⟩ := Mock.rawReader_inv hrd
    rfl
  obtain ⟨run, hrun⟩ := hm T hT
  obtain ⟨r, hr, hnum⟩ := hres T run hT hrun
  have hin : VotesIn lo hi a := by
    intro e s r
    rcases hc e s r with hn | ⟨v, hn⟩
    · exact Or.inl hn
    · have hlt : e.val < d'.disVideos.length := by rw [← hE]; exact e.isLt
      have := hp e _ (List.getElem?_eq_getElem hlt)
      exact Or.inr ⟨v, hn, hv _ (List.getElem_mem hlt) v (this.mem_iff.mp (Mock.mem_present.mpr ((mem_videoCells _ _ _).mpr ⟨s, r, hn⟩)))⟩
  obtain ⟨h1, h2⟩ := C144_models_partial hrun ha hin hr
  rw [(hnum i).1] at hcell
  cases hx : r.qualityScores[i]? with
  | none => rw [hx] at hcell; cases hcell
  | some x =>
    rw [hx] at hcell
    cases hcell
    exact ⟨x, rfl, fun hm => h1 hm x (List.mem_of_getElem? hx), fun hm hs => h2 hm (by rw [hds]; exact hs) x (List.mem_of_getElem? hx)⟩

end program

/-! ## the P.910 solver on complete panels -/

section complete
variable {κ : Type} {J I R : ℕ} {X : Fin J → Fin I → Fin R → ℝ} {lo hi : ℝ}

theorem sum_bounds {ι : Type} [Fintype ι] {f : ι → ℝ} (hf : ∀ i, lo ≤ f i ∧ f i ≤ hi) :
    (Fintype.card ι : ℝ) * lo ≤ ∑ i, f i ∧ ∑ i, f i ≤ Fintype.card ι * hi := by
  constructor
  · have := Finset.card_nsmul_le_sum Finset.univ f lo fun i _ => (hf i).1
    rwa [nsmul_eq_mul, Finset.card_univ] at this
  · have := Finset.sum_le_card_nsmul Finset.univ f hi fun i _ => (hf i).2
    rwa [nsmul_eq_mul, Finset.card_univ] at this

theorem avg_bounds {ι : Type} [Fintype ι] {f : ι → ℝ} {n : ℝ} (hn : n = Fintype.card ι) (hp : 0 < n) (hf : ∀ i, lo ≤ f i ∧ f i ≤ hi) :
    lo ≤ (∑ i, f i) / n ∧ (∑ i, f i) / n ≤ hi := by
  obtain ⟨h1, h2⟩ := sum_bounds hf
  rw [← hn] at h1 h2
  rw [le_div_iff₀ hp, div_le_iff₀ hp]
  constructor <;> linarith

/-- **C144.** On a complete panel with all votes on a scale, the P.910 solver succeeds and its scores leave the scale by at most its width. -/
theorem C144_ap_complete (sd : StdFormula) (rd : Reader κ ℝ) (hob : ObserversHarmless rd) (hJ : 0 < J) (hI : 0 < I) (hR : 0 < R)
    (ha : rd.scores = .ok ⟨J, I, R, fun j i r => .fin (X j i r)⟩) (hX : ∀ j i r, lo ≤ X j i r ∧ X j i r ≤ hi) :
    ∃ res : Result κ ℝ, runAPWith sd rd {} = .ok res ∧ res.qualityScores.length = J ∧ ∀ x ∈ res.qualityScores, InWideScale lo hi x := by
  obtain ⟨res, v, h1, -, -, h2⟩ := C143_closed_form sd rd hob hJ hI hR ha
  refine ⟨res, h1, by rw [h2, List.length_ofFn], fun x hx => ?_⟩
  rw [h2] at hx
  obtain ⟨j, rfl⟩ := (List.mem_ofFn' _ _).mp hx
  have hJ' : (0 : ℝ) < J := by exact_mod_cast hJ
  have hI' : (0 : ℝ) < I := by exact_mod_cast hI
  have hR' : (0 : ℝ) < R := by exact_mod_cast hR
  have hg : lo ≤ grandMean X ∧ grandMean X ≤ hi := by
    unfold grandMean
    have := avg_bounds (ι := Fin J × Fin I × Fin R) (f := fun c => X c.1 c.2.1 c.2.2) (n := J * I * R) (by simp [mul_assoc]) (by positivity)
      fun c => hX _ _ _
    rwa [Fintype.sum_prod_type, Finset.sum_congr rfl fun j _ => Fintype.sum_prod_type _] at this
  have hm : ∀ i, lo ≤ observerMean X i ∧ observerMean X i ≤ hi := by
    intro i
    unfold observerMean
    have := avg_bounds (ι := Fin J × Fin R) (f := fun c => X c.1 i c.2) (n := J * R) (by simp) (by positivity) fun c => hX _ _ _
    rwa [Fintype.sum_prod_type] at this
  have hc : ∀ i, lo ≤ cellMean X j i ∧ cellMean X j i ≤ hi :=
    fun i => avg_bounds (ι := Fin R) (f := fun r => X j i r) (by simp) hR' fun r => hX _ _ _
  have hp : ∀ i, 0 < precision (v i) := fun i => by unfold precision; positivity
  have hW : 0 < ∑ i, precision (v i) := Finset.sum_pos (fun i _ => hp i) ⟨⟨0, hI⟩, Finset.mem_univ _⟩
  have hw : -(hi - lo) ≤ (∑ i, precision (v i) * (cellMean X j i - observerMean X i)) / ∑ i, precision (v i) ∧
      (∑ i, precision (v i) * (cellMean X j i - observerMean X i)) / ∑ i, precision (v i) ≤ hi - lo := by
    rw [le_div_iff₀ hW, div_le_iff₀ hW, Finset.mul_sum, Finset.mul_sum]
    constructor
    · refine Finset.sum_le_sum fun i _ => ?_
      have := mul_le_mul_of_nonneg_left (show -(hi - lo) ≤ cellMean X j i - observerMean X i by have := hc i; have := hm i; linarith) (hp i).le
      linarith
    · refine Finset.sum_le_sum fun i _ => ?_
      have := mul_le_mul_of_nonneg_left (show cellMean X j i - observerMean X i ≤ hi - lo by have := hc i; have := hm i; linarith) (hp i).le
      linarith
  exact Or.inr ⟨_, rfl, by linarith [hg.1, hw.1], by linarith [hg.2, hw.2]⟩

end complete

/-! ## the P.910 solver leaves the scale -/

section twins

/-- the votes of `exTwins` -/
def twins : Fin 2 → Fin 3 → Fin 1 → ℝ := fun j i _ => (![![5, 5, 5], ![5, 1, 1]] : Fin 2 → Fin 3 → ℝ) j i

theorem twins_means : grandMean twins = 11 / 3 ∧ observerMean twins 0 = 5 ∧ observerMean twins 1 = 3 ∧ observerMean twins 2 = 3 ∧
    ∀ j i, cellMean twins j i = twins j i 0 := by
  refine ⟨?_, ?_, ?_, ?_, ?_⟩
  · unfold grandMean twins
    norm_num [Fin.sum_univ_succ]
  · unfold observerMean twins
    norm_num [Fin.sum_univ_succ]
  · unfold observerMean twins
    norm_num [Fin.sum_univ_succ]
  · unfold observerMean twins
    simp [Fin.sum_univ_succ]
    norm_num
  · intro j i
    unfold cellMean
    simp

theorem twins_weight (S : Fin 2 → ℝ) (i : Fin 3) :
    passWeight twins S i = 1 / (((twins 0 i 0 - twins 1 i 0 - (S 0 - S 1)) / 2) ^ 2 + 1 / 100000000) := by
  unfold passWeight apWeight apSpread spread avg
  rw [allP_observer, Real.sq_sqrt (by positivity)]
  simp only [Fintype.sum_prod_type, Fin.sum_univ_two, Fin.sum_univ_one, Finset.card_univ, Fintype.card_prod, Fintype.card_fin]
  congr 2
  push_cast
  ring

/-- the twins weigh more than the other observer, as soon as the difference of the scores is nearer to theirs -/
theorem twins_less {S : Fin 2 → ℝ} (h : 2 < S 0 - S 1) : passWeight twins S 0 < passWeight twins S 1 ∧ passWeight twins S 1 = passWeight twins S 2 := by
  simp only [twins_weight]
  have e : twins 0 1 0 - twins 1 1 0 = 4 ∧ twins 0 2 0 - twins 1 2 0 = 4 ∧ twins 0 0 0 - twins 1 0 0 = 0 := by
    unfold twins
    refine ⟨?_, ?_, ?_⟩ <;> simp <;> norm_num
  rw [e.1, e.2.1, e.2.2]
  refine ⟨?_, rfl⟩
  apply one_div_lt_one_div_of_lt (by positivity)
  nlinarith

theorem twins_next {S : Fin 2 → ℝ} (h : 2 < S 0 - S 1) (hm : (∑ j, S j) / (2 : ℕ) = 11 / 3) :
    5 < next (allP 2 3 1) twins S 0 ∧ 2 < next (allP 2 3 1) twins S 0 - next (allP 2 3 1) twins S 1 := by
  obtain ⟨-, m0, m1, m2, hc⟩ := twins_means
  obtain ⟨h1, h2⟩ := twins_less h
  have hp := passWeight_pos (X := twins) S 0
  rw [next_complete two_pos three_pos one_pos, next_complete two_pos three_pos one_pos, hm]
  simp only [hc, Fin.sum_univ_three, m0, m1, m2, ← h2]
  have e : twins 0 0 0 = 5 ∧ twins 0 1 0 = 5 ∧ twins 0 2 0 = 5 ∧ twins 1 0 0 = 5 ∧ twins 1 1 0 = 1 ∧ twins 1 2 0 = 1 := by
    unfold twins
    simp
  obtain ⟨e1, e2, e3, e4, e5, e6⟩ := e
  rw [e1, e2, e3, e4, e5, e6]
  generalize passWeight twins S 0 = p at *
  generalize passWeight twins S 1 = q at *
  have hW : 0 < p + q + q := by linarith
  have k : 4 / 3 < (p * (5 - 5) + q * (5 - 3) + q * (5 - 3)) / (p + q + q) := by
    rw [lt_div_iff₀ hW]
    linarith
  have k' : (p * (5 - 5) + q * (1 - 3) + q * (1 - 3)) / (p + q + q) = -((p * (5 - 5) + q * (5 - 3) + q * (5 - 3)) / (p + q + q)) := by
    rw [← neg_div]
    congr 1
    ring
  rw [k']
  constructor <;> linarith

theorem twins_seq (k : ℕ) : 2 < seq (allP 2 3 1) twins k 0 - seq (allP 2 3 1) twins k 1 := by
  induction k with
  | zero =>
    show 2 < mos0 (allP 2 3 1) twins 0 - mos0 (allP 2 3 1) twins 1
    unfold mos0 avg twins
    rw [allP_video, allP_video]
    simp [Fintype.sum_prod_type, Fin.sum_univ_three]
    norm_num
  | succ k ih => exact (twins_next ih (by rw [seq_sum two_pos three_pos one_pos, twins_means.1])).2

theorem twins_score : 5 < estQ (allP 2 3 1) twins 0 := by
  unfold estQ lastS
  rw [meanB_complete two_pos three_pos one_pos, add_zero]
  exact (twins_next (twins_seq _) (by rw [seq_sum two_pos three_pos one_pos, twins_means.1])).1

/-- three observers, two of whom agree -/
def exTwins : Dataset String ℝ :=
  { refVideos := [⟨0, "r0", []⟩]
    disVideos := [
      { contentId := 0, assetId := 0, path := "r0", os := some (.seq false [.one (.fin 5), .one (.fin 5), .one (.fin 5)]) },
      { contentId := 0, assetId := 1, path := "d1", os := some (.seq false [.one (.fin 5), .one (.fin 1), .one (.fin 1)]) }] }

theorem exTwins_readable : Readable exTwins where
  wf := by
    refine ⟨by simp [exTwins], by simp [exTwins], by simp [exTwins], by simp [exTwins], ?_, ?_⟩
    · intro dv hdv
      simp only [exTwins, List.mem_cons, List.not_mem_nil, or_false] at hdv
      rcases hdv with rfl | rfl <;> exact ⟨_, rfl, by simp⟩
    · intro d0 h0 _ dv hdv
      simp only [exTwins, List.head?_cons, Option.some.injEq] at h0
      subst h0
      simp only [exTwins, List.mem_cons, List.not_mem_nil, or_false] at hdv
      rcases hdv with rfl | rfl <;> rfl
  style := by
    left
    intro dv hdv
    simp only [exTwins, List.mem_cons, List.not_mem_nil, or_false] at hdv
    rcases hdv with rfl | rfl <;> exact ⟨_, _, rfl⟩
  single := by
    intro dv hdv xs hx
    simp only [exTwins, List.mem_cons, List.not_mem_nil, or_false] at hdv
    rcases hdv with rfl | rfl <;> simp [entries] at hx
  clean := by
    intro dv hdv x hx
    simp only [exTwins, List.mem_cons, List.not_mem_nil, or_false] at hdv
    rcases hdv with rfl | rfl <;> simp [videoVotes, entries, votesOf] at hx
    · subst hx; exact Or.inr ⟨_, rfl⟩
    · rcases hx with rfl | rfl <;> exact Or.inr ⟨_, rfl⟩

theorem exTwins_votes : (∀ dv ∈ exTwins.disVideos, numbersOf dv ≠ []) ∧ EachVoted 2 exTwins := by
  refine ⟨?_, ?_⟩
  · intro dv hdv
    simp only [exTwins, List.mem_cons, List.not_mem_nil, or_false] at hdv
    rcases hdv with rfl | rfl <;> exact List.cons_ne_nil _ _
  · rintro (o | s) hw
    · obtain ⟨dv, hdv, ho⟩ := hw
      simp only [exTwins, List.mem_cons, List.not_mem_nil, or_false] at hdv
      rcases hdv with rfl | rfl <;> simp [raters] at ho
    · obtain ⟨dv, hdv, -, hs⟩ := hw
      have hs3 : s < 3 := by
        simp only [exTwins, List.mem_cons, List.not_mem_nil, or_false] at hdv
        rcases hdv with rfl | rfl <;> exact hs
      have : s = 0 ∨ s = 1 ∨ s = 2 := by omega
      rcases this with rfl | rfl | rfl <;> exact le_refl 2

theorem exTwins_scores : ∃ rd, rawReader exTwins = .ok rd ∧ ObserversHarmless rd ∧ rd.scores = .ok ⟨2, 3, 1, fun j i r => .fin (twins j i r)⟩ := by
  obtain ⟨rd, a, hrd, -, -, -, -, -, hob⟩ := Main.reads exTwins_readable
  refine ⟨rd, hrd, hob.elim (fun ⟨l, h, _⟩ => Or.inl ⟨l, h⟩) fun h => Or.inr (Or.inl h), ?_⟩
  cases hrd
  show opinionScores exTwins.disVideos = _
  have hq := opinionScores_seq (κ := String) (K := ℝ)
    (d0 := { contentId := 0, assetId := 0, path := "r0", os := some (.seq false [.one (.fin 5), .one (.fin 5), .one (.fin 5)]) })
    (rest := [{ contentId := 0, assetId := 1, path := "d1", os := some (.seq false [.one (.fin 5), .one (.fin 1), .one (.fin 1)]) }])
    (by
      intro dv hdv
      simp only [List.mem_cons, List.not_mem_nil, or_false] at hdv
      rcases hdv with rfl | rfl <;> exact ⟨_, _, rfl⟩)
    (by
      intro dv hdv
      simp only [List.mem_cons, List.not_mem_nil, or_false] at hdv
      rcases hdv with rfl | rfl <;> rfl)
    (by
      intro dv hdv
      simp only [List.mem_cons, List.not_mem_nil, or_false] at hdv
      rcases hdv with rfl | rfl <;> simp [NdarraysSingle, entries])
  refine hq.trans ?_
  show Except.ok (⟨2, 3, 1, _⟩ : Arr3D (Fl ℝ)) = _
  congr 2
  funext e s r
  fin_cases e <;> fin_cases s <;> fin_cases r <;> simp [entries, Vote.cell, twins]

open Routine Format Main
variable {ppf : Fl ℝ → ℕ → Fl ℝ} {other : ModelClass → Reader String ℝ → Py (Result String ℝ)}
  {pc : List ModelClass → Py (Output (String ⊕ String) (Fl ℝ))}

/-- **C144** refuted for P.910: three observers rate two videos from 1 to 5, nothing is missing, and the program with the model P910 writes a score
greater than 5 for the video all of them gave 5 -/
theorem C144_p910_refuted : Readable exTwins ∧ (∀ dv ∈ exTwins.disVideos, (numbersOf dv).length = 3 ∧ ∀ x ∈ numbersOf dv, 1 ≤ x ∧ x ≤ 5) ∧
    ∃ out q, main ppf other pc "scores.py".toList (.ok exTwins) (.error .assertion) ["P910"] = .ok out ∧
      numberIn out.disVideos 0 "P910" "quality_score" = some (.one (.fin q)) ∧ 5 < q := by
  refine ⟨exTwins_readable, ?_, ?_⟩
  · intro dv hdv
    simp only [exTwins, List.mem_cons, List.not_mem_nil, or_false] at hdv
    rcases hdv with rfl | rfl
    · refine ⟨rfl, fun x hx => ?_⟩
      change x ∈ [(5 : ℝ), 5, 5] at hx
      simp only [List.mem_cons, List.not_mem_nil, or_false] at hx
      rcases hx with rfl | rfl | rfl <;> norm_num
    · refine ⟨rfl, fun x hx => ?_⟩
      change x ∈ [(5 : ℝ), 1, 1] at hx
      simp only [List.mem_cons, List.not_mem_nil, or_false] at hx
      rcases hx with rfl | rfl | rfl <;> norm_num
  · obtain ⟨out, ho⟩ := C118_succeeds_partial (ppf := ppf) (other := other) (pc := pc) (models := ["P910"]) (by decide +kernel) (by simp)
      exTwins_readable (ex_loads _) exTwins_votes.1 exTwins_votes.2
    obtain ⟨d, rd, hl, hrd, hall⟩ := C117_any (by simp) (by simp) (by
      intro T hT
      simp only [List.mem_cons, List.not_mem_nil, or_false] at hT
      subst hT
      exact ⟨(runAP2 · {}), by simp [runsByName]⟩) ho
    have hd : d = exTwins := by
      have h1 := (loads_read hl).1
      rw [(loads_read (ex_loads exTwins)).1] at h1
      cases h1
      rfl
    subst hd
    obtain ⟨rd', hrd', hob, ha⟩ := exTwins_scores
    rw [hrd] at hrd'
    cases hrd'
    obtain ⟨r, hr, hn⟩ := hall "P910" (runAP2 · {}) (by simp) (by simp [runsByName])
    obtain ⟨res, h1, h2, -⟩ := run_real (allP 2 3 1) twins sStdAlt rd hob ha (allP_voted two_pos three_pos one_pos) three_pos
    have he : res = r := by
      have : runAP2 rd {} = .ok r := hr
      unfold runAP2 at this
      rw [h1] at this
      cases this
      rfl
    subst he
    refine ⟨out, _, ho, ?_, twins_score⟩
    rw [(hn 0).1, h2]
    rfl

end twins

/-! ## the hypotheses are met -/

section examples
open Routine Format Main
variable {ppf : Fl ℝ → ℕ → Fl ℝ} {other : ModelClass → Reader String ℝ → Py (Result String ℝ)}
  {pc : List ModelClass → Py (Output (String ⊕ String) (Fl ℝ))}

/-- the program with MOS, BT500 and P913 on `exComplete`; the scores of MOS are on the scale from 2 to 5 -/
example : ∃ out x, main ppf other pc "scores.py".toList (.ok exComplete) (.error .assertion) ["MOS", "BT500", "P913"] = .ok out ∧
    numberIn out.disVideos 0 "MOS" "quality_score" = some (.one x) ∧ InScale 2 5 x := by
  have hm : ∀ T ∈ ["MOS", "BT500", "P913"], ∃ run, (T, run) ∈ (runsByName : List (String × (Reader String ℝ → Py (Result String ℝ)))) := by
    intro T hT
    simp only [List.mem_cons, List.not_mem_nil, or_false] at hT
    rcases hT with rfl | rfl | rfl
    · exact ⟨_, List.mem_cons_self⟩
    · exact ⟨(runSR_MOS · {}), by simp [runsByName]⟩
    · exact ⟨(runBR_SR_MOS · {}), by simp [runsByName]⟩
  obtain ⟨out, ho⟩ := C118_succeeds_partial (ppf := ppf) (other := other) (pc := pc) (models := ["MOS", "BT500", "P913"]) (by decide +kernel) (by simp)
    exComplete_readable (ex_loads _) (by
      intro dv hdv hn
      have := exComplete_votes.2.1 dv hdv
      rw [hn] at this
      simp at this) exComplete_votes.2.2
  obtain ⟨-, x, -, hx, -⟩ := C142_program_partial (Q := (· < ·)) (Or.inr (Or.inl rfl)) (by decide +kernel) hm ho (ex_loads _) exComplete_readable
    (i := 1) (j := 0) (T := "MOS") rfl rfl exComplete_rated (by simp) (Or.inl (by decide +kernel))
  obtain ⟨x', hx', h1, -⟩ := C144_program_partial (lo := 2) (hi := 5) (by decide +kernel) hm ho (ex_loads _) exComplete_readable (by
    intro dv hdv v hv
    simp only [exComplete, List.mem_cons, List.not_mem_nil, or_false] at hdv
    rcases hdv with rfl | rfl
    · change v ∈ [(5 : ℝ), 4] at hv
      simp only [List.mem_cons, List.not_mem_nil, or_false] at hv
      rcases hv with rfl | rfl <;> norm_num
    · change v ∈ [(2 : ℝ), 3] at hv
      simp only [List.mem_cons, List.not_mem_nil, or_false] at hv
      rcases hv with rfl | rfl <;> norm_num) (T := "MOS") (by simp) hx
  cases hx'
  exact ⟨out, x, ho, hx, h1 (by decide +kernel)⟩

/-- `C144_ap_complete` on the votes of `exTwins` -/
example : ∃ (rd : Reader String ℝ) (res : Result String ℝ), rawReader exTwins = .ok rd ∧ runAP2 rd {} = .ok res ∧
    ∀ x ∈ res.qualityScores, InWideScale 1 5 x := by
  obtain ⟨rd, hrd, hob, ha⟩ := exTwins_scores
  obtain ⟨res, h1, -, h2⟩ := C144_ap_complete (lo := 1) (hi := 5) sStdAlt rd hob two_pos three_pos one_pos ha (by
    intro j i r
    unfold twins
    fin_cases j <;> fin_cases i <;> simp <;> norm_num)
  exact ⟨rd, res, hrd, h1, h2⟩

end examples

/-! ## shifted votes leave the scale -/

section witnesses
attribute [local instance] ratMath

/-- two observers, the second did not rate the first video -/
def exShort : Dataset String ℚ :=
  { refVideos := [⟨0, "r0", []⟩]
    refScore := some (some (.fin 5))
    disVideos := [
      { contentId := 0, assetId := 0, path := "r0", os := some (.seq false [.one (.fin 5), .one .nan]) },
      { contentId := 0, assetId := 1, path := "d1", os := some (.seq false [.one (.fin 1), .one (.fin 5)]) }] }

/-- the reference is rated worse than the processed video -/
def exBetter : Dataset String ℚ :=
  { refVideos := [⟨0, "r0", []⟩]
    refScore := some (some (.fin 5))
    disVideos := [
      { contentId := 0, assetId := 0, path := "r0", os := some (.seq false [.one (.fin 3), .one (.fin 3)]) },
      { contentId := 0, assetId := 1, path := "d1", os := some (.seq false [.one (.fin 4), .one (.fin 5)]) }] }

/-- **C144** refuted for models with bias removal: votes from 1 to 5, one of them missing; the score of the first video is 6 -/
theorem C144_bias_refuted : ∃ (rd : Reader String ℚ) (a : Arr3D (Fl ℚ)) (res : Result String ℚ), rawReader exShort = .ok rd ∧ rd.scores = .ok a ∧
    VotesIn 1 5 a ∧ runBR_MOS rd {} = .ok res ∧ res.qualityScores[0]? = some (.fin 6) := by
  obtain ⟨rd, h1, k1⟩ := okWith_elim (x := rawReader exShort) (P := fun rd => okWith (runBR_MOS rd {}) fun res =>
    decide (res.qualityScores[0]? = some (Fl.fin 6))) (by decide +kernel)
  obtain ⟨res, h2, k2⟩ := okWith_elim k1
  obtain ⟨-, rfl⟩ := Mock.rawReader_inv h1
  obtain ⟨a, h3, k3⟩ := okWith_elim (x := opinionScores exShort.disVideos) (P := fun a => decide (∀ e s r, a.get e s r = .nan ∨ a.get e s r = .fin 1 ∨ a.get e s r = .fin 5))
    (by decide +kernel)
  refine ⟨_, a, res, h1, h3, fun e s r => ?_, h2, of_decide_eq_true k2⟩
  rcases of_decide_eq_true k3 e s r with h | h | h
  · exact Or.inl h
  · exact Or.inr ⟨1, h, by norm_num, by norm_num⟩
  · exact Or.inr ⟨5, h, by norm_num, by norm_num⟩

/-- **C144** refuted for differential scores: votes from 1 to 5, nothing missing, references are given 5; the score of the second video is 6.5 -/
theorem C144_dscore_refuted : ∃ (rd : Reader String ℚ) (a : Arr3D (Fl ℚ)) (res : Result String ℚ), rawReader exBetter = .ok rd ∧ rd.scores = .ok a ∧
    VotesIn 1 5 a ∧ runDMOS rd {} = .ok res ∧ res.qualityScores[1]? = some (.fin (13 / 2)) := by
  obtain ⟨rd, h1, k1⟩ := okWith_elim (x := rawReader exBetter) (P := fun rd => okWith (runDMOS rd {}) fun res =>
    decide (res.qualityScores[1]? = some (Fl.fin (13 / 2)))) (by decide +kernel)
  obtain ⟨res, h2, k2⟩ := okWith_elim k1
  obtain ⟨-, rfl⟩ := Mock.rawReader_inv h1
  obtain ⟨a, h3, k3⟩ := okWith_elim (x := opinionScores exBetter.disVideos) (P := fun a => decide (∀ e s r, a.get e s r = .fin 3 ∨ a.get e s r = .fin 4 ∨ a.get e s r = .fin 5))
    (by decide +kernel)
  refine ⟨_, a, res, h1, h3, fun e s r => ?_, h2, of_decide_eq_true k2⟩
  rcases of_decide_eq_true k3 e s r with h | h | h
  · exact Or.inr ⟨3, h, by norm_num, by norm_num⟩
  · exact Or.inr ⟨4, h, by norm_num, by norm_num⟩
  · exact Or.inr ⟨5, h, by norm_num, by norm_num⟩

end witnesses

end Sureal.Props
