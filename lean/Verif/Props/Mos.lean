import Verif.Lemmas.Mos
import Verif.Props.Reader
import Mathlib.Logic.Equiv.Fin.Basic
/-!
# Properties of the MOS model: C07 – C12
-/
set_option linter.unusedSectionVars false
namespace Sureal.Props
open Sureal Spec

section field
variable {κ K : Type} [Field K] [LinearOrder K] [IsStrictOrderedRing K]

/-- **C07.** Stacking along axis 0 (or 1) is a re-layout: there is a bijection between (repetition, video)
pairs (or (repetition, observer) pairs) and rows (columns) of the result, the same for all contents, such
that each cell is found at its position, and the position modulo E (S) is the video (observer). -/
theorem C07_stack_lossless (E S R : ℕ) :
    (∃ f : Fin R × Fin E ≃ Fin (R * E), (∀ r e, (f (r, e)).val % E = e.val ∧ (f (r, e)).val / E = r.val) ∧
      ∀ (a : Arr3 (Fl K) E S R) r e s, stack0 a (f (r, e)) s = a e s r) ∧
    (∃ f : Fin R × Fin S ≃ Fin (R * S), (∀ r s, (f (r, s)).val % S = s.val ∧ (f (r, s)).val / S = r.val) ∧
      ∀ (a : Arr3 (Fl K) E S R) r e s, stack1 a e (f (r, s)) = a e s r) := by
  have key : ∀ (R N : ℕ) (r : Fin R) (n : Fin N), (finProdFinEquiv (r, n)).val % N = n.val ∧
      (finProdFinEquiv (r, n)).val / N = r.val := by
    intro R N r n
    have hn : 0 < N := Nat.lt_of_le_of_lt (Nat.zero_le _) n.isLt
    rw [finProdFinEquiv_apply_val]
    exact ⟨by rw [Nat.add_mul_mod_self_left, Nat.mod_eq_of_lt n.isLt],
      by rw [Nat.add_mul_div_left _ _ hn, Nat.div_eq_of_lt n.isLt, Nat.zero_add]⟩
  refine ⟨⟨finProdFinEquiv, fun r e => key R E r e, fun a r e s => ?_⟩,
    ⟨finProdFinEquiv, fun r s => key R S r s, fun a r e s => ?_⟩⟩
  · exact stack0_apply a e s r _ (by rw [finProdFinEquiv_apply_val, Nat.mul_comm]; exact Nat.add_comm _ _)
  · exact stack1_apply a e s r _ (by rw [finProdFinEquiv_apply_val, Nat.mul_comm]; exact Nat.add_comm _ _)

/-- the theorem at work on a 2 x 3 x 2 array of rationals -/
example : ∃ f : Fin 2 × Fin 3 ≃ Fin (2 * 3), ∀ (a : Arr3 (Fl ℚ) 3 3 2) r e s, stack0 a (f (r, e)) s = a e s r :=
  let ⟨f, _, h⟩ := (C07_stack_lossless 3 3 2).1
  ⟨f, h⟩

variable [MathFn K]

/-- **C08.** End to end: the quality score of a video is the mean of the votes the dataset lists for it, NaN
when there is none.  (Votes are numbers or NaN; the run does not raise.) -/
theorem C08_mos_end_to_end [LinearOrder κ] (d : Dataset κ K) (rd : Reader κ K) (hacc : rawReader d = .ok rd)
    (hstyle : (∀ dv ∈ d.disVideos, SeqStyle dv) ∨ (∀ dv ∈ d.disVideos, DictStyle dv))
    (hs : ∀ dv ∈ d.disVideos, NdarraysSingle dv)
    (hnum : ∀ dv ∈ d.disVideos, ∀ x ∈ videoVotes dv, NumOrNan x) :
    ∃ res, runMOS rd {} = .ok res ∧ res.qualityScores = d.disVideos.map fun dv => meanOrNan (videoVotes dv) := by
  have hass : assertRaw d = .ok () := by
    unfold rawReader at hacc
    split at hacc
    · cases hacc
    · assumption
  have hrd : rd = ⟨d, d.disVideos, opinionScores d.disVideos, listObservers d.disVideos⟩ := by
    unfold rawReader at hacc
    rw [hass] at hacc
    cases hacc; rfl
  obtain ⟨a, ha, hE, hp⟩ := C06_no_vote_lost d hass hstyle hs
  have hsc : rd.scores = .ok a := by rw [hrd]; exact ha
  have hobs : (∃ o, rd.observers = .ok o) ∨ rd.observers = .error .assertion := by
    have w := (C01_accepts_iff_wellFormed d).mp hass
    rcases hstyle with h | h
    · right
      rw [hrd]
      show listObservers d.disVideos = _
      unfold listObservers
      cases hd : d.disVideos with
      | nil => exact absurd hd w.diss
      | cons d0 rest =>
        obtain ⟨t, l, hl⟩ := h d0 (by rw [hd]; exact List.mem_cons_self)
        simp only [mapPy, osDict, hl]
    · left
      rw [hrd]
      exact ⟨_, listObservers_dict h⟩
  have hex : ∃ res, runMOS rd {} = .ok res := by
    unfold runMOS runModeling mosRunModeling
    rw [preprocess_default hsc]
    dsimp only
    rcases hobs with ⟨o, ho⟩ | ho <;> rw [ho]
    · exact ⟨_, rfl⟩
    · exact ⟨_, rfl⟩
  obtain ⟨res, hres⟩ := hex
  refine ⟨res, hres, ?_⟩
  rw [runMOS_default hsc hres]
  show List.ofFn (meanAlongS a.get) = _
  apply List.ext_getElem?
  intro i
  by_cases hi : i < a.E
  · have hi' : i < d.disVideos.length := by omega
    obtain ⟨dv, hdv⟩ : ∃ dv, d.disVideos[i]? = some dv := ⟨_, List.getElem?_eq_getElem hi'⟩
    have hperm := hp ⟨i, hi⟩ dv hdv
    have hmem : dv ∈ d.disVideos := List.mem_of_getElem? hdv
    have hclean : ∀ s r, NumOrNan (a.get ⟨i, hi⟩ s r) := by
      intro s r
      by_cases hn : (a.get ⟨i, hi⟩ s r).isNan = true
      · exact Or.inl ((Fl.isNan_iff _).mp hn)
      · have h1 : a.get ⟨i, hi⟩ s r ∈ dropNan (videoCells a.get ⟨i, hi⟩) := by
          unfold dropNan
          rw [List.mem_filter]
          exact ⟨(mem_videoCells _ _ _).mpr ⟨s, r, rfl⟩, by simpa using hn⟩
        have h2 := hperm.mem_iff.mp h1
        exact hnum dv hmem _ (List.mem_of_mem_filter h2)
    rw [List.getElem?_ofFn, dif_pos hi, List.getElem?_map, hdv, meanAlongS_spec _ _ hclean]
    simp only [Option.map_some]
    rw [meanOrNan_perm (present_congr_dropNan hperm)]
  · rw [List.getElem?_eq_none (by simp; omega), List.getElem?_eq_none (by simp; omega)]

/-- the example dataset meets the hypotheses; its scores are 14/3, 2 and 1 -/
example [MathFn ℚ] : ∃ rd res, rawReader exSeq = .ok rd ∧ runMOS rd {} = .ok res ∧
    res.qualityScores = [.fin (14/3), .fin 2, .fin 1] := by
  obtain ⟨rd, hrd⟩ : ∃ rd, rawReader exSeq = .ok rd := ⟨_, rfl⟩
  obtain ⟨res, h1, h2⟩ := C08_mos_end_to_end exSeq rd hrd (Or.inl (by
      intro dv hdv; simp only [exSeq, List.mem_cons, List.not_mem_nil, or_false] at hdv
      rcases hdv with rfl | rfl | rfl <;> exact ⟨_, _, rfl⟩))
    (by
      intro dv hdv; simp only [exSeq, List.mem_cons, List.not_mem_nil, or_false] at hdv
      rcases hdv with rfl | rfl | rfl <;> intro xs hx <;> simp [entries] at hx)
    (by
      intro dv hdv; simp only [exSeq, List.mem_cons, List.not_mem_nil, or_false] at hdv
      rcases hdv with rfl | rfl | rfl <;> intro x hx <;> simp [videoVotes, entries, votesOf] at hx
      · rcases hx with rfl | rfl | rfl <;> exact Or.inr ⟨_, rfl⟩
      · rcases hx with rfl | rfl
        · exact Or.inl rfl
        · exact Or.inr ⟨_, rfl⟩
      · subst hx; exact Or.inr ⟨_, rfl⟩)
  exact ⟨rd, res, hrd, h1, by rw [h2]; decide +kernel⟩

/-- **C09.** A video's MOS lies between any bounds of its votes; unanimous votes give exactly that score. -/
theorem C09_mos_bounds (rd : Reader κ K) (a : Arr3D (Fl K)) (res : Result κ K) (ha : rd.scores = .ok a)
    (hr : runMOS rd {} = .ok res) (e : Fin a.E) (hc : ∀ s r, NumOrNan (a.get e s r))
    (hne : ∃ s r v, a.get e s r = .fin v) (lo hi : K)
    (hb : ∀ s r v, a.get e s r = .fin v → lo ≤ v ∧ v ≤ hi) :
    ∃ m, res.qualityScores[e.val]? = some (.fin m) ∧ lo ≤ m ∧ m ≤ hi ∧ (lo = hi → m = lo) := by
  have hmem : ∀ v, v ∈ present (videoCells a.get e) ↔ ∃ s r, a.get e s r = .fin v := by
    intro v
    unfold present
    rw [List.mem_filterMap]
    constructor
    · rintro ⟨x, hx, hv⟩
      obtain ⟨s, r, rfl⟩ := (mem_videoCells _ _ _).mp hx
      refine ⟨s, r, ?_⟩
      cases h : a.get e s r <;> simp_all [Fl.val?]
    · rintro ⟨s, r, h⟩
      exact ⟨_, (mem_videoCells _ _ _).mpr ⟨s, r, rfl⟩, by rw [h]; rfl⟩
  obtain ⟨s, r, v, hv⟩ := hne
  have hne' : present (videoCells a.get e) ≠ [] := List.ne_nil_of_mem ((hmem v).mpr ⟨s, r, hv⟩)
  have hbd := mean_bounds hne' (lo := lo) (hi := hi) (by
    intro x hx; obtain ⟨s, r, h⟩ := (hmem x).mp hx; exact hb s r x h)
  refine ⟨mean (present (videoCells a.get e)), ?_, hbd.1, hbd.2, fun h => le_antisymm (h ▸ hbd.2) hbd.1⟩
  rw [runMOS_default ha hr]
  show (List.ofFn (meanAlongS a.get))[e.val]? = _
  rw [List.getElem?_ofFn, dif_pos e.isLt, meanAlongS_spec _ _ hc]
  unfold meanOrNan
  cases h : present (videoCells a.get e) with
  | nil => exact absurd h hne'
  | cons x xs => rfl

end field

section real
variable {κ : Type}

/-- a reader whose array is `a` (everything else empty); used to exhibit concrete runs -/
def arrReader (E S R : ℕ) (a : Arr3 (Fl ℝ) E S R) : Reader String ℝ :=
  { dataset := { refVideos := [], disVideos := [] }, disVideos := [], scores := .ok ⟨E, S, R, a⟩, observers := .ok [] }

theorem arrReader_runs (E S R : ℕ) (a : Arr3 (Fl ℝ) E S R) : ∃ res, runMOS (arrReader E S R a) {} = .ok res := by
  unfold runMOS runModeling mosRunModeling
  rw [preprocess_default (rd := arrReader E S R a) rfl]
  exact ⟨_, rfl⟩

/-- a 2 x 2 x 1 array with a missing vote -/
def exArr : Arr3 (Fl ℝ) 2 2 1 := fun e s _ => if e = 0 then (if s = 0 then .fin 1 else .fin 3) else (if s = 0 then .fin 4 else .nan)

theorem exArr_clean : ∀ e s r, NumOrNan (exArr e s r) := by
  intro e s r
  unfold exArr
  split_ifs <;> first | exact Or.inr ⟨_, rfl⟩ | exact Or.inl rfl

/-- hypotheses of C09 on the example array, with the bounds of a 1..5 scale -/
example : (∃ s r v, exArr 0 s r = .fin v) ∧ ∀ s r v, exArr 0 s r = .fin v → (1 : ℝ) ≤ v ∧ v ≤ 5 := by
  refine ⟨⟨0, 0, 1, rfl⟩, ?_⟩
  intro s r v h
  unfold exArr at h
  split_ifs at h <;> · cases h; norm_num

/-- **C10.** Re-arranging a video's votes over observers and repetitions (in any way, different for each
video), and adding observers or repetition slots without votes, changes neither MOS nor standard error nor
ambiguity.  `φ e` says where each old cell of video `e` is found in the new array; all other new cells are
NaN. -/
theorem C10_relayout {E S R S' R' : ℕ} (rd rd' : Reader κ ℝ) (a : Arr3 (Fl ℝ) E S R) (a' : Arr3 (Fl ℝ) E S' R')
    (ha : rd.scores = .ok ⟨E, S, R, a⟩) (ha' : rd'.scores = .ok ⟨E, S', R', a'⟩)
    (hc : ∀ e s r, NumOrNan (a e s r))
    (φ : Fin E → (Fin S × Fin R ↪ Fin S' × Fin R'))
    (h : ∀ e p, a' e (φ e p).1 (φ e p).2 = a e p.1 p.2)
    (hout : ∀ e q, (∀ p, φ e p ≠ q) → a' e q.1 q.2 = .nan)
    (res res' : Result κ ℝ) (hr : runMOS rd {} = .ok res) (hr' : runMOS rd' {} = .ok res') :
    res'.qualityScores = res.qualityScores ∧ res'.qualityScoresStd = res.qualityScoresStd ∧
      res'.qualityAmbiguity = res.qualityAmbiguity := by
  have hc' : ∀ e s r, NumOrNan (a' e s r) := by
    intro e s r
    by_cases hx : ∃ p, φ e p = (s, r)
    · obtain ⟨p, hp⟩ := hx
      have := h e p
      rw [hp] at this
      rw [this]; exact hc _ _ _
    · push Not at hx
      exact Or.inl (hout e (s, r) hx)
  have hp := fun e => present_congr_dropNan (dropNan_relayout a a' e (φ e) (h e) (hout e))
  rw [runMOS_default ha hr, runMOS_default ha' hr']
  have h1 : meanAlongS a' = meanAlongS a := by
    funext e
    rw [meanAlongS_spec _ _ (hc' e), meanAlongS_spec _ _ (hc e), meanOrNan_perm (hp e)]
  have h2 : ∀ e, Np.nanstd 1 (rowL (stack1 a') e) = Np.nanstd 1 (rowL (stack1 a) e) := by
    intro e
    rw [nanstd1_row _ _ (hc' e), nanstd1_row _ _ (hc e), sampleStdOrNan_perm (hp e)]
  have h3 : ∀ e, Np.countNotNan (rowL (stack1 a') e) = Np.countNotNan (rowL (stack1 a) e) := by
    intro e
    rw [countNotNan_row _ _ (hc' e), countNotNan_row _ _ (hc e), (hp e).length_eq]
  refine ⟨?_, ?_, ?_⟩
  · show List.ofFn (meanAlongS a') = List.ofFn (meanAlongS a)
    rw [h1]
  · show some (List.ofFn fun e => _ / _) = some (List.ofFn fun e => _ / _)
    simp only [h2, h3]
  · show some (List.ofFn fun e => _) = some (List.ofFn fun e => _)
    simp only [h2]

/-- **C10**, permutations: observers permuted by `σ` and each observer's repetitions by `τ s`. -/
theorem C10_permute {E S R : ℕ} (rd rd' : Reader κ ℝ) (a : Arr3 (Fl ℝ) E S R)
    (σ : Equiv.Perm (Fin S)) (τ : Fin S → Equiv.Perm (Fin R))
    (ha : rd.scores = .ok ⟨E, S, R, a⟩) (ha' : rd'.scores = .ok ⟨E, S, R, fun e s r => a e (σ s) (τ s r)⟩)
    (hc : ∀ e s r, NumOrNan (a e s r))
    (res res' : Result κ ℝ) (hr : runMOS rd {} = .ok res) (hr' : runMOS rd' {} = .ok res') :
    res'.qualityScores = res.qualityScores ∧ res'.qualityScoresStd = res.qualityScoresStd ∧
      res'.qualityAmbiguity = res.qualityAmbiguity := by
  have hinj : Function.Injective fun p : Fin S × Fin R => (σ.symm p.1, (τ (σ.symm p.1)).symm p.2) := by
    rintro ⟨s, r⟩ ⟨s', r'⟩ hq
    simp only [Prod.mk.injEq, EmbeddingLike.apply_eq_iff_eq] at hq
    obtain ⟨rfl, h2⟩ := hq
    simpa using h2
  refine C10_relayout rd rd' a _ ha ha' hc (fun _ => ⟨_, hinj⟩) ?_ ?_ res res' hr hr'
  · intro e p
    show a e (σ (σ.symm p.1)) (τ (σ.symm p.1) ((τ (σ.symm p.1)).symm p.2)) = _
    rw [Equiv.apply_symm_apply, Equiv.apply_symm_apply]
  · intro e q hq
    refine absurd ?_ (hq (σ q.1, τ q.1 q.2))
    show (σ.symm (σ q.1), (τ (σ.symm (σ q.1))).symm (τ q.1 q.2)) = q
    rw [Equiv.symm_apply_apply, Equiv.symm_apply_apply]

/-- **C10**, padding: `k` further observers and `l` further repetition slots without votes. -/
theorem C10_padding {E S R : ℕ} (k l : ℕ) (rd rd' : Reader κ ℝ) (a : Arr3 (Fl ℝ) E S R)
    (ha : rd.scores = .ok ⟨E, S, R, a⟩)
    (ha' : rd'.scores = .ok ⟨E, S + k, R + l, fun e s r =>
      if h : s.val < S ∧ r.val < R then a e ⟨s, h.1⟩ ⟨r, h.2⟩ else .nan⟩)
    (hc : ∀ e s r, NumOrNan (a e s r))
    (res res' : Result κ ℝ) (hr : runMOS rd {} = .ok res) (hr' : runMOS rd' {} = .ok res') :
    res'.qualityScores = res.qualityScores ∧ res'.qualityScoresStd = res.qualityScoresStd ∧
      res'.qualityAmbiguity = res.qualityAmbiguity := by
  have hinj : Function.Injective fun p : Fin S × Fin R => (p.1.castAdd k, p.2.castAdd l) := by
    rintro ⟨s, r⟩ ⟨s', r'⟩ hq
    simp only [Prod.mk.injEq, Fin.castAdd_inj] at hq
    simp [hq.1, hq.2]
  refine C10_relayout rd rd' a _ ha ha' hc (fun _ => ⟨_, hinj⟩) ?_ ?_ res res' hr hr'
  · intro e p
    exact dif_pos ⟨p.1.isLt, p.2.isLt⟩
  · rintro e ⟨s, r⟩ hq
    dsimp only
    rw [dif_neg]
    rintro ⟨h1, h2⟩
    exact hq (⟨s, h1⟩, ⟨r, h2⟩) rfl

/-- concrete case: the two observers of the example swapped, and one empty observer and slot added -/
example : ∃ res res' res'', runMOS (arrReader 2 2 1 exArr) {} = .ok res ∧
    runMOS (arrReader 2 2 1 fun e s r => exArr e (Equiv.swap 0 1 s) r) {} = .ok res' ∧
    runMOS (arrReader 2 (2 + 1) (1 + 1) fun e s r => if h : s.val < 2 ∧ r.val < 1 then exArr e ⟨s, h.1⟩ ⟨r, h.2⟩ else .nan) {} = .ok res'' ∧
    res'.qualityScores = res.qualityScores ∧ res''.qualityScores = res.qualityScores := by
  obtain ⟨res, h⟩ := arrReader_runs 2 2 1 exArr
  obtain ⟨res', h'⟩ := arrReader_runs 2 2 1 fun e s r => exArr e (Equiv.swap 0 1 s) r
  obtain ⟨res'', h''⟩ := arrReader_runs 2 (2 + 1) (1 + 1) fun e s r =>
    if h : s.val < 2 ∧ r.val < 1 then exArr e ⟨s, h.1⟩ ⟨r, h.2⟩ else .nan
  exact ⟨res, res', res'', h, h', h'',
    (C10_permute _ _ exArr (Equiv.swap 0 1) (fun _ => 1) rfl rfl exArr_clean _ _ h h').1,
    (C10_padding 1 1 _ _ exArr rfl rfl exArr_clean _ _ h h'').1⟩

/-- **C11.** An affine change of the votes maps every MOS the same way and scales the standard error and the
ambiguity by `|c|`. -/
theorem C11_mos_affine {E S R : ℕ} (c b : ℝ) (rd rd' : Reader κ ℝ) (a : Arr3 (Fl ℝ) E S R)
    (ha : rd.scores = .ok ⟨E, S, R, a⟩) (ha' : rd'.scores = .ok ⟨E, S, R, fun e s r => affine c b (a e s r)⟩)
    (hc : ∀ e s r, NumOrNan (a e s r))
    (res res' : Result κ ℝ) (hr : runMOS rd {} = .ok res) (hr' : runMOS rd' {} = .ok res') :
    res'.qualityScores = res.qualityScores.map (affine c b) ∧
    res'.qualityScoresStd = res.qualityScoresStd.map (List.map fun x => .fin |c| * x) ∧
    res'.qualityAmbiguity = res.qualityAmbiguity.map (List.map fun x => .fin |c| * x) := by
  have hc' : ∀ e s r, NumOrNan (affine c b (a e s r)) := fun e s r => affine_clean (hc e s r)
  rw [runMOS_default ha hr, runMOS_default ha' hr']
  have h2 : ∀ e, Np.nanstd 1 (rowL (stack1 fun e s r => affine c b (a e s r)) e)
      = .fin |c| * Np.nanstd 1 (rowL (stack1 a) e) := by
    intro e
    rw [nanstd1_row _ _ (hc' e), nanstd1_row _ _ (hc e), videoCells_map, sampleStdOrNan_affine]
  have h3 : ∀ e, Np.countNotNan (rowL (stack1 fun e s r => affine c b (a e s r)) e)
      = Np.countNotNan (rowL (stack1 a) e) := by
    intro e
    rw [countNotNan_row _ _ (hc' e), countNotNan_row _ _ (hc e), videoCells_map, present_map_affine, List.length_map]
  refine ⟨?_, ?_, ?_⟩
  · show List.ofFn (meanAlongS _) = (List.ofFn (meanAlongS a)).map _
    rw [List.map_ofFn]
    congr 1
    funext e
    rw [Function.comp_apply, meanAlongS_spec _ _ (hc' e), meanAlongS_spec _ _ (hc e), videoCells_map,
      meanOrNan_affine]
  · show some (List.ofFn fun e => _ / _) = some ((List.ofFn fun e => _ / _).map _)
    simp only [h2, h3, List.map_ofFn]
    congr 2
    funext e
    simp only [Function.comp_apply]
    rw [nanstd1_row _ _ (hc e), Fl.natCast_def, Fl.sqrt_fin (Nat.cast_nonneg _)]
    cases hx : sampleStdOrNan (videoCells a e) with
    | nan => simp
    | pinf => unfold sampleStdOrNan at hx; split at hx <;> cases hx
    | ninf => unfold sampleStdOrNan at hx; split at hx <;> cases hx
    | fin x =>
      have hn : (present (videoCells a e)).length ≠ 0 := by
        intro h0
        rw [List.length_eq_zero_iff] at h0
        simp [sampleStdOrNan, h0] at hx
      rw [countNotNan_row _ _ (hc e)]
      have : (MathFn.sqrt ((present (videoCells a e)).length : ℝ)) ≠ 0 := by
        show Real.sqrt _ ≠ 0
        rw [Real.sqrt_ne_zero']
        exact_mod_cast Nat.pos_of_ne_zero hn
      rw [Fl.fin_mul, Fl.fin_div this, Fl.fin_div this, Fl.fin_mul, mul_div_assoc]
  · show some (List.ofFn fun e => _) = some ((List.ofFn fun e => _).map _)
    simp only [h2, List.map_ofFn]
    rfl

example : ∃ res res', runMOS (arrReader 2 2 1 exArr) {} = .ok res ∧
    runMOS (arrReader 2 2 1 fun e s r => affine (-2) 7 (exArr e s r)) {} = .ok res' ∧
    res'.qualityScores = res.qualityScores.map (affine (-2) 7) := by
  obtain ⟨res, h⟩ := arrReader_runs 2 2 1 exArr
  obtain ⟨res', h'⟩ := arrReader_runs 2 2 1 fun e s r => affine (-2) 7 (exArr e s r)
  exact ⟨res, res', h, h', (C11_mos_affine (-2) 7 _ _ exArr rfl rfl exArr_clean _ _ h h').1⟩

/-- **C12.** With `l` the votes of video `e` and `n` their number: for `n ≥ 2` the ambiguity is their sample
standard deviation, the standard error that divided by `√n`, both non-negative; for `n < 2` both are NaN;
the two half-widths of the 95% interval are both `1.95996` times the standard error. -/
theorem C12_mos_uncertainty (rd : Reader κ ℝ) (a : Arr3D (Fl ℝ)) (res : Result κ ℝ) (ha : rd.scores = .ok a)
    (hr : runMOS rd {} = .ok res) (hc : ∀ e s r, NumOrNan (a.get e s r)) :
    ∃ amb se lo hi, res.qualityAmbiguity = some amb ∧ res.qualityScoresStd = some se ∧
      res.qualityScoresCi95 = some (lo, hi) ∧
      amb.length = a.E ∧ se.length = a.E ∧ lo = hi ∧ lo = se.map (fun x => .fin (195996 / 100000) * x) ∧
      ∀ (e : Fin a.E) (l : List ℝ), present (videoCells a.get e) = l →
        (2 ≤ l.length →
          amb[e.val]? = some (.fin (Real.sqrt (sampleVar l))) ∧
          se[e.val]? = some (.fin (Real.sqrt (sampleVar l) / Real.sqrt l.length)) ∧
          0 ≤ Real.sqrt (sampleVar l) / Real.sqrt l.length) ∧
        (l.length < 2 → amb[e.val]? = some .nan ∧ se[e.val]? = some .nan) := by
  rw [runMOS_default ha hr]
  refine ⟨_, _, _, _, rfl, rfl, rfl, by simp, by simp, rfl, ?_, ?_⟩
  · rw [List.map_ofFn]
    congr 1
  · rintro e l rfl
    simp only [List.getElem?_ofFn, e.isLt, dif_pos]
    have hstd := nanstd1_row a.get e (hc e)
    have hcnt := countNotNan_row a.get e (hc e)
    refine ⟨fun h2 => ?_, fun h2 => ?_⟩
    · have hval : sampleStdOrNan (videoCells a.get e) = .fin (Real.sqrt (sampleVar (present (videoCells a.get e)))) := by
        unfold sampleStdOrNan
        match h : present (videoCells a.get e) with
        | [] => simp [h] at h2
        | [x] => simp [h] at h2
        | x :: y :: xs => rfl
      refine ⟨?_, ?_, by positivity⟩
      · rw [hstd, hval]
      · rw [hstd, hval, hcnt, Fl.natCast_def, Fl.sqrt_fin (Nat.cast_nonneg _), Fl.fin_div]
        · rfl
        · show Real.sqrt _ ≠ 0
          rw [Real.sqrt_ne_zero']
          have : 0 < (present (videoCells a.get e)).length := by omega
          exact_mod_cast this
    · have hval : sampleStdOrNan (videoCells a.get e) = .nan := by
        unfold sampleStdOrNan
        match h : present (videoCells a.get e) with
        | [] => rfl
        | [x] => rfl
        | x :: y :: xs => simp [h] at h2
      rw [hstd, hval]
      exact ⟨rfl, by simp⟩

/-- video 0 of the example has two votes (1 and 3), video 1 one vote -/
example : present (videoCells exArr 0) = [1, 3] ∧ present (videoCells exArr 1) = [4] := by
  constructor <;> simp [videoCells, exArr, List.ofFn_succ, present, Fl.val?]

end real
end Sureal.Props
