import Verif.Lemmas.Plots
import Verif.Props.ApSym
/-!
# C104: the data of the plots
-/
set_option linter.unusedSectionVars false
namespace Sureal.Props
open Sureal Spec Plots

section
variable {K : Type} [Field K] [LinearOrder K] [IsStrictOrderedRing K]

theorem scatter_spec (ls : List (List (Fl K))) :
    (scatter (ls.map Hist.histc) = .error .value ∧ ∀ l ∈ ls, ∀ x ∈ l, x.isNan = true) ∨
    ∃ d, scatter (ls.map Hist.histc) = .ok d ∧ (∃ l ∈ ls, ∃ x ∈ l, x.isNan = false) ∧
      (∀ j x c, (j, x, c) ∈ d ↔ ∃ l, ls[j]? = some l ∧ x.isNan = false ∧ x ∈ l ∧ c = l.count x) ∧
      d.Pairwise (fun p q => p.1 < q.1 ∨ p.1 = q.1 ∧ Fl.lt p.2.1 q.2.1 = true) ∧
      (d.map fun p => p.2.2).sum = (ls.flatten.filter fun x => !x.isNan).length := by
  obtain ⟨h1, h2, h3⟩ := datas_spec ls 0
  unfold scatter
  generalize ((ls.map Hist.histc).zipIdx).flatMap (fun p => entries p.2 p.1) = d at h1 h2 h3 ⊢
  cases d with
  | nil =>
    left
    refine ⟨rfl, fun l hl x hx => ?_⟩
    by_contra hn
    obtain ⟨j, hj⟩ := List.getElem?_of_mem hl
    have := (h1 j x (l.count x)).mpr ⟨by omega, l, by simpa using hj, by simpa using hn, hx, rfl⟩
    cases this
  | cons p d =>
    right
    refine ⟨p :: d, rfl, ?_, fun j x c => ?_, h2, h3⟩
    · obtain ⟨_, l, hl, hx, hm, _⟩ := (h1 p.1 p.2.1 p.2.2).mp List.mem_cons_self
      exact ⟨l, List.mem_of_getElem? hl, p.2.1, hm, hx⟩
    · rw [h1]
      simp

/-- the number of pairs of an observer and a video with a mean vote -/
def ratedPairs {S E : ℕ} (m : Arr2 (Fl K) S E) : ℕ :=
  ∑ i, ∑ j, if (m i j).isNan then 0 else 1

theorem length_filter_ofFn {n : ℕ} (f : Fin n → Fl K) :
    ((List.ofFn f).filter fun x => !x.isNan).length = ∑ i, if (f i).isNan then 0 else 1 := by
  induction n with
  | zero => simp
  | succ n ih =>
    rw [List.ofFn_succ, Fin.sum_univ_succ, List.filter_cons, ← ih]
    cases (f 0).isNan
    · simp; omega
    · simp

theorem length_filter_flatten {n m : ℕ} (f : Fin n → Fin m → Fl K) :
    ((List.ofFn fun j => List.ofFn (f j)).flatten.filter fun x => !x.isNan).length = ∑ j, ∑ i, if (f j i).isNan then 0 else 1 := by
  induction n with
  | zero => simp
  | succ n ih =>
    rw [List.ofFn_succ, List.flatten_cons, List.filter_append, List.length_append, ih, Fin.sum_univ_succ, length_filter_ofFn]

theorem getElem?_ofFn_some {α : Type} {n : ℕ} {f : Fin n → α} {j : ℕ} {l : α} :
    (List.ofFn f)[j]? = some l ↔ ∃ h : j < n, f ⟨j, h⟩ = l := by
  rw [List.getElem?_ofFn]
  split
  · rename_i h
    simp only [Option.some.injEq]
    exact ⟨fun e => ⟨h, e⟩, fun ⟨_, e⟩ => e⟩
  · rename_i h
    simp [h]

theorem occurrences_ofFn {α : Type} [DecidableEq α] {n : ℕ} (f : Fin n → α) (x : α) :
    (List.ofFn f).count x = (Finset.univ.filter fun i => f i = x).card := by
  induction n with
  | zero => simp
  | succ n ih =>
    rw [List.ofFn_succ, List.count_cons, ih, Fin.univ_succ, Finset.filter_cons]
    split_ifs with h1 h2 h2
    · rw [Finset.card_cons, Finset.filter_map, Finset.card_map]; rfl
    · exact absurd (beq_iff_eq.mp h1) h2
    · exact absurd (beq_iff_eq.mpr h2) h1
    · rw [Finset.filter_map, Finset.card_map]; rfl

/-- **C104.** The plot `raw_counts` fails exactly if there is no vote.  Otherwise its points are, for each video and each value some
observer gave it in the mean over repetitions, the number of these observers; they are ordered by video and value, and the
counts add up to the number of rated pairs. -/
theorem C104_rawCounts {E S R : ℕ} (a : Arr3 (Fl K) E S R) :
    (rawCounts a = .error .value ∧ ∀ i j, (meanMatrix a i j).isNan = true) ∨
    ∃ d, rawCounts a = .ok d ∧ (∃ i j, (meanMatrix a i j).isNan = false) ∧
      (∀ (j : ℕ) x c, (j, x, c) ∈ d ↔ ∃ h : j < E, x.isNan = false ∧ 0 < c ∧
        c = (Finset.univ.filter fun i => meanMatrix a i ⟨j, h⟩ = x).card) ∧
      d.Pairwise (fun p q => p.1 < q.1 ∨ p.1 = q.1 ∧ Fl.lt p.2.1 q.2.1 = true) ∧
      (d.map fun p => p.2.2).sum = ratedPairs (meanMatrix a) := by
  have hmap : (List.ofFn fun j => Hist.histc (colL (meanMatrix a) j)) = (List.ofFn fun j => colL (meanMatrix a) j).map Hist.histc := by
    rw [List.map_ofFn]; rfl
  unfold rawCounts
  rw [hmap]
  rcases scatter_spec (List.ofFn fun j => colL (meanMatrix a) j) with ⟨h1, h2⟩ | ⟨d, h1, ⟨l, hl, x, hx, hn⟩, h3, h4, h5⟩
  · refine Or.inl ⟨h1, fun i j => h2 _ (List.mem_ofFn.mpr ⟨j, rfl⟩) _ (List.mem_ofFn.mpr ⟨i, rfl⟩)⟩
  · obtain ⟨j, rfl⟩ := List.mem_ofFn.mp hl
    obtain ⟨i, rfl⟩ := List.mem_ofFn.mp hx
    refine Or.inr ⟨d, h1, ⟨i, j, hn⟩, fun j x c => ?_, h4, ?_⟩
    · rw [h3]
      constructor
      · rintro ⟨l, hl, hx, hm, hc⟩
        obtain ⟨h, rfl⟩ := getElem?_ofFn_some.mp hl
        exact ⟨h, hx, by rw [hc]; exact List.count_pos_iff.mpr hm, by rw [hc]; exact occurrences_ofFn _ _⟩
      · rintro ⟨h, hx, h0, hc⟩
        refine ⟨_, getElem?_ofFn_some.mpr ⟨h, rfl⟩, hx, ?_, by rw [hc]; exact (occurrences_ofFn _ _).symm⟩
        rw [← List.count_pos_iff]
        have := occurrences_ofFn (fun i => meanMatrix a i ⟨j, h⟩) x
        unfold colL
        omega
    · rw [h5]
      unfold ratedPairs colL
      rw [length_filter_flatten, Finset.sum_comm]

/-- **C104.** The same for `raw_counts_per_subject`, with observers and videos exchanged. -/
theorem C104_rawCountsPerSubject {E S R : ℕ} (a : Arr3 (Fl K) E S R) :
    (rawCountsPerSubject a = .error .value ∧ ∀ i j, (meanMatrix a i j).isNan = true) ∨
    ∃ d, rawCountsPerSubject a = .ok d ∧ (∃ i j, (meanMatrix a i j).isNan = false) ∧
      (∀ (i : ℕ) x c, (i, x, c) ∈ d ↔ ∃ h : i < S, x.isNan = false ∧ 0 < c ∧
        c = (Finset.univ.filter fun j => meanMatrix a ⟨i, h⟩ j = x).card) ∧
      d.Pairwise (fun p q => p.1 < q.1 ∨ p.1 = q.1 ∧ Fl.lt p.2.1 q.2.1 = true) ∧
      (d.map fun p => p.2.2).sum = ratedPairs (meanMatrix a) := by
  have hmap : (List.ofFn fun i => Hist.histc (rowL (meanMatrix a) i)) = (List.ofFn fun i => rowL (meanMatrix a) i).map Hist.histc := by
    rw [List.map_ofFn]; rfl
  unfold rawCountsPerSubject
  rw [hmap]
  rcases scatter_spec (List.ofFn fun i => rowL (meanMatrix a) i) with ⟨h1, h2⟩ | ⟨d, h1, ⟨l, hl, x, hx, hn⟩, h3, h4, h5⟩
  · refine Or.inl ⟨h1, fun i j => h2 _ (List.mem_ofFn.mpr ⟨i, rfl⟩) _ (List.mem_ofFn.mpr ⟨j, rfl⟩)⟩
  · obtain ⟨i, rfl⟩ := List.mem_ofFn.mp hl
    obtain ⟨j, rfl⟩ := List.mem_ofFn.mp hx
    refine Or.inr ⟨d, h1, ⟨i, j, hn⟩, fun i x c => ?_, h4, ?_⟩
    · rw [h3]
      constructor
      · rintro ⟨l, hl, hx, hm, hc⟩
        obtain ⟨h, rfl⟩ := getElem?_ofFn_some.mp hl
        exact ⟨h, hx, by rw [hc]; exact List.count_pos_iff.mpr hm, by rw [hc]; exact occurrences_ofFn _ _⟩
      · rintro ⟨h, hx, h0, hc⟩
        refine ⟨_, getElem?_ofFn_some.mpr ⟨h, rfl⟩, hx, ?_, by rw [hc]; exact (occurrences_ofFn _ _).symm⟩
        rw [← List.count_pos_iff]
        have := occurrences_ofFn (fun j => meanMatrix a ⟨i, h⟩ j) x
        change 0 < (List.ofFn fun j => meanMatrix a ⟨i, h⟩ j).count x
        omega
    · rw [h5]
      unfold ratedPairs rowL
      rw [length_filter_flatten]

/-- **C104.** The mean vote of an observer on a video is missing exactly if the observer gave none. -/
theorem C104_meanMatrix {E S R : ℕ} (a : Arr3 (Fl K) E S R) (hc : ∀ j i r, NumOrNan (a j i r)) (i : Fin S) (j : Fin E) :
    ((meanMatrix a i j).isNan = true ↔ ∀ r, a j i r = .nan) ∧
    (∀ v, (∃ r x, a j i r = .fin x) → (∀ r x, a j i r = .fin x → x = v) → meanMatrix a i j = .fin v) := by
  have hl : Np.Clean (List.ofFn (a j i)) := Np.clean_ofFn.mpr (hc j i)
  have hmem : ∀ x, x ∈ present (List.ofFn (a j i)) ↔ ∃ r, a j i r = .fin x := by
    intro x
    unfold present
    rw [List.mem_filterMap]
    constructor
    · rintro ⟨y, hy, he⟩
      obtain ⟨r, rfl⟩ := List.mem_ofFn.mp hy
      refine ⟨r, ?_⟩
      rcases hc j i r with h | ⟨v, h⟩ <;> rw [h] at he <;> simp at he
      rw [h, he]
    · rintro ⟨r, h⟩
      exact ⟨_, List.mem_ofFn.mpr ⟨r, rfl⟩, by rw [h]; rfl⟩
  unfold meanMatrix
  by_cases hp : present (List.ofFn (a j i)) = []
  · have hno : ∀ r, a j i r = .nan := by
      intro r
      rcases hc j i r with h | ⟨v, h⟩
      · exact h
      · have := (hmem v).mpr ⟨r, h⟩
        rw [hp] at this
        cases this
    rw [Np.nanmean_empty hl hp]
    refine ⟨⟨fun _ => hno, fun _ => rfl⟩, ?_⟩
    rintro v ⟨r, x, h⟩
    rw [hno r] at h
    cases h
  · rw [Np.nanmean_eq hl hp]
    refine ⟨⟨fun h => (by cases h), fun h => ?_⟩, fun v _ hv => ?_⟩
    · exfalso
      apply hp
      rw [List.eq_nil_iff_forall_not_mem]
      intro x hx
      obtain ⟨r, hr⟩ := (hmem x).mp hx
      rw [h r] at hr
      cases hr
    · congr 1
      have : present (List.ofFn (a j i)) = List.replicate (present (List.ofFn (a j i))).length v := by
        rw [List.eq_replicate_iff]
        refine ⟨rfl, fun x hx => ?_⟩
        obtain ⟨r, hr⟩ := (hmem x).mp hx
        exact hv r x hr
      have hlen := Np.length_ne_zero hp
      rw [this]
      unfold Spec.mean
      simp only [List.sum_replicate, List.length_replicate, nsmul_eq_mul]
      field_simp

/-- **C104.** Taking the scores off before the mean over the repetitions is the same as taking them off afterwards. -/
theorem C104_residual {E S R : ℕ} (a : Arr3 (Fl K) E S R) (hc : ∀ j i r, NumOrNan (a j i r)) (q : Fin E → K) (b : Fin S → K) (i : Fin S)
    (j : Fin E) :
    residual a (fun j => .fin (q j)) i j = meanMatrix a i j - .fin (q j) ∧
    residualB a (fun j => .fin (q j)) (fun i => .fin (b i)) i j = meanMatrix a i j - .fin (q j) - .fin (b i) := by
  have hl : Np.Clean (List.ofFn (a j i)) := Np.clean_ofFn.mpr (hc j i)
  have h1 : residual a (fun j => .fin (q j)) i j = meanMatrix a i j - .fin (q j) := by
    unfold Plots.residual meanMatrix
    rw [← nanmean_sub hl, List.map_ofFn]
    rfl
  refine ⟨h1, ?_⟩
  rw [← h1]
  unfold Plots.residual residualB meanMatrix
  have hl2 : Np.Clean (List.ofFn fun r => a j i r - Fl.fin (q j)) := by
    have := clean_sub hl (q j)
    rwa [List.map_ofFn] at this
  rw [← nanmean_sub hl2, List.map_ofFn]
  rfl

/-- the subplots of `quality_scores_vs_raw_scores`: enough for all observers, in as few columns as the rows allow -/
theorem C104_grid (obs : ℕ) (h : 1 < obs) :
    nrows obs ^ 2 ≤ obs ∧ obs < (nrows obs + 1) ^ 2 ∧ obs ≤ nrows obs * ncols obs ∧ nrows obs * (ncols obs - 1) < obs := by
  have h1 : nrows obs * nrows obs ≤ obs := Nat.sqrt_le obs
  have h2 : obs < (nrows obs + 1) * (nrows obs + 1) := Nat.lt_succ_sqrt obs
  have h0 : 0 < nrows obs := Nat.sqrt_pos.mpr (by omega)
  unfold ncols
  generalize nrows obs = n at *
  refine ⟨by rw [pow_two]; exact h1, by rw [pow_two]; exact h2, ?_, ?_⟩
  · have := Nat.div_add_mod (obs + n - 1) n
    have := Nat.mod_lt (obs + n - 1) h0
    omega
  · have h3 := Nat.div_mul_le_self (obs + n - 1) n
    have h4 : 0 < (obs + n - 1) / n := Nat.div_pos (by omega) h0
    obtain ⟨m, hm⟩ : ∃ m, (obs + n - 1) / n = m + 1 := ⟨_, (Nat.succ_pred_eq_of_pos h4).symm⟩
    rw [hm] at h3 ⊢
    rw [Nat.add_sub_cancel, Nat.mul_comm]
    rw [Nat.add_mul] at h3
    omega

end

section runs
variable {κ : Type}

theorem videoCells_one {α : Type} {E S : ℕ} (c : Arr3 α E S 1) (j : Fin E) : videoCells c j = List.ofFn fun i => c j i 0 := by
  unfold videoCells
  have : (List.ofFn fun s => List.ofFn fun r => c j s r) = (List.ofFn fun i => c j i 0).map fun x => [x] := by
    rw [List.map_ofFn]
    congr 1
  rw [this]
  induction (List.ofFn fun i => c j i 0) with
  | nil => rfl
  | cons x l ih => simp [ih]

theorem observerCells_one {α : Type} {E S : ℕ} (c : Arr3 α E S 1) (i : Fin S) : observerCells c i = List.ofFn fun j => c j i 0 :=
  videoCells_one (fun i j r => c j i r) i

theorem meanMatrix_one {E S : ℕ} (a : Arr3 (Fl ℝ) E S 1) (hc : ∀ j i r, NumOrNan (a j i r)) (i : Fin S) (j : Fin E) :
    meanMatrix a i j = a j i 0 := by
  unfold meanMatrix
  rw [show List.ofFn (a j i) = [a j i 0] by simp]
  exact nanmean_one _ (hc j i 0)

theorem sum_sub_avg {ι : Type} (A : Finset ι) (f : ι → ℝ) : ∑ c ∈ A, (f c - avg A f) = 0 := by
  rcases A.eq_empty_or_nonempty with rfl | hA
  · simp
  · have : (A.card : ℝ) ≠ 0 := by exact_mod_cast (Finset.card_pos.mpr hA).ne'
    rw [Finset.sum_sub_distrib, Finset.sum_const, nsmul_eq_mul]
    unfold avg
    field_simp
    ring

theorem nansum_perm {l l' : List (Fl ℝ)} (h : l.Perm l') (c : Np.Clean l) : Np.nansum l = Np.nansum l' := by
  rw [Np.nansum_eq c, Np.nansum_eq (c.perm h)]
  congr 1
  exact (Np.present_perm h).sum_eq

section
variable {E S R : ℕ} (P : Fin E → Fin S → Fin R → Bool) (F : Fin E → Fin S → Fin R → ℝ)

theorem maskX_clean (j : Fin E) (i : Fin S) (r : Fin R) : NumOrNan (Ap.maskX P F j i r) := mask_clean _ _

theorem nansum_video (j : Fin E) : Np.nansum (videoCells (Ap.maskX P F) j) = .fin (∑ c ∈ votesOnVideo P j, F j c.1 c.2) :=
  (nansum_perm (rowL_stack1_perm _ j) (mask_row_clean P _ j)).symm.trans
    (nansum_of_coe (mask_row_clean P _ j) (coe_present_row P _ j))

theorem nansum_observer (i : Fin S) : Np.nansum (observerCells (Ap.maskX P F) i) = .fin (∑ c ∈ votesOfObserver P i, F c.1 i c.2) :=
  (nansum_perm (colL_stack0_perm _ i) (mask_col_clean P _ i)).symm.trans
    (nansum_of_coe (mask_col_clean P _ i) (coe_present_col P _ i))

end

/-- **C104.** With one repetition, the residues of a MOS run shown for a video add up to 0, and a residue is missing exactly if the
vote is. -/
theorem C104_mos {E S : ℕ} (rd : Reader κ ℝ) (a : Arr3 (Fl ℝ) E S 1) (ha : rd.scores = .ok ⟨E, S, 1, a⟩)
    (hc : ∀ j i r, NumOrNan (a j i r)) (res : Result κ ℝ) (hr : runMOS rd {} = .ok res) :
    ∃ q : Arr1 (Fl ℝ) E, res.qualityScores = List.ofFn q ∧
      ∀ j, Np.nansum (colL (residual a q) j) = .fin 0 ∧ ∀ i, (residual a q i j).isNan = (a j i 0).isNan := by
  have hq : res.qualityScores = List.ofFn (meanAlongS a) := by
    unfold runMOS runModeling mosRunModeling at hr
    rw [preprocess_default ha] at hr
    simp only at hr
    split at hr
    · cases hr; rfl
    · cases hr; rfl
    · cases hr; rfl
    · cases hr
  refine ⟨_, hq, fun j => ?_⟩
  obtain ⟨P, X, rfl⟩ : ∃ P X, a = Ap.maskX P X := ⟨_, _, exists_mask a hc⟩
  change Np.nansum (colL (residual (Ap.maskX P X) (meanAlongS (Ap.maskX P X))) j) = .fin 0 ∧
    ∀ i, (residual (Ap.maskX P X) (meanAlongS (Ap.maskX P X)) i j).isNan = (Ap.maskX P X j i 0).isNan
  rw [Ap.init_spec]
  have hcell : ∀ i, residual (Ap.maskX P X) (Ap.maskS P fun j => avg (votesOnVideo P j) fun c => X j c.1 c.2) i j
      = Ap.maskX P (fun j i r => X j i r - avg (votesOnVideo P j) fun c => X j c.1 c.2) j i 0 := by
    intro i
    unfold Plots.residual
    rw [Ap.sub_maskS, meanMatrix_one _ (maskX_clean P _)]
  constructor
  · unfold colL
    simp only [hcell]
    rw [← videoCells_one, nansum_video]
    congr 1
    exact sum_sub_avg _ _
  · intro i
    rw [hcell]
    unfold Ap.maskX
    cases P j i 0 <;> rfl

/-- **C104.** With one repetition and votes by every observer, the residues of a run of the projection solver shown for an observer,
with the bias taken off, add up to 0, and a residue is missing exactly if the vote is. -/
theorem C104_ap (sd : StdFormula) {E S : ℕ} (rd : Reader κ ℝ) (a : Arr3 (Fl ℝ) E S 1) (ha : rd.scores = .ok ⟨E, S, 1, a⟩)
    (hc : CleanVotes ⟨E, S, 1, a⟩) (hv : EveryObserverVoted ⟨E, S, 1, a⟩) (res : Result κ ℝ) (hr : runAPWith sd rd {} = .ok res) :
    ∃ (q : Fin E → ℝ) (b : Fin S → ℝ), res.qualityScores = List.ofFn (fun j => .fin (q j)) ∧
      res.observerBias = some (List.ofFn fun i => .fin (b i)) ∧
      ∀ i, Np.nansum (rowL (residualB a (fun j => .fin (q j)) fun i => .fin (b i)) i) = .fin 0 ∧
        ∀ j, (residualB a (fun j => .fin (q j)) (fun i => .fin (b i)) i j).isNan = (a j i 0).isNan := by
  have hraw : res.rawScores = some ⟨E, S, 1, a⟩ := by
    obtain ⟨p, f, hp, hf, hres⟩ := ap_run hr
    rw [preprocess_default ha] at hp
    cases hp
    rw [hres]
    rfl
  obtain ⟨q, q0, b, b0, res0, hq, hb, -, -, hr0, hq0, hb0, hsum, -⟩ := C26_zero_mean_bias_partial sd rd {} rfl rfl (by simp) res hr _ hraw hc hv
  refine ⟨q, b, hq, hb, fun i => ?_⟩
  obtain ⟨p, f, hp, hf, hres⟩ := ap_run hr0
  rw [show preprocess rd { ({} : Opts ℝ) with forceSubjbiasZeromean := some (some false) } = preprocess rd {} from
    preprocess_force {} _, preprocess_default ha] at hp
  cases hp
  dsimp only at hf
  obtain ⟨P, X, rfl⟩ : ∃ P X, a = Ap.maskX P X := ⟨_, _, exists_mask a hc⟩
  rcases Ap.fit_mask P X with ⟨_, h⟩ | ⟨hvv, k, S', B', _, h⟩
  · rw [h] at hf; cases hf
  rw [h] at hf
  injection hf with hf
  rw [Ap.step_spec] at hf
  have hobs : ∀ i, (votesOfObserver P i).Nonempty := by
    intro i
    obtain ⟨j, r, v, hv⟩ := hv i
    exact (mask_nonempty_observer i).mpr ⟨j, r, v, hv⟩
  generalize hQ : apQuality P X B' (apSpread P X S' B') = Q at hf
  have e1 : ∀ j, q0 j = Q j := by
    have : List.ofFn (fun j => Fl.fin (q0 j)) = List.ofFn (Ap.maskS P Q) := by
      rw [← hq0, hres, post_plain rfl rfl, ← hf]
      rfl
    intro j
    have := congrFun (List.ofFn_injective this) j
    simp only [Ap.maskS, hvv j, decide_true, mask_true] at this
    exact Fl.fin.inj this
  have e2 : ∀ i, b0 i = apBias P X Q i := by
    have : some (List.ofFn fun i => Fl.fin (b0 i)) = some (List.ofFn (Ap.maskB P (apBias P X Q))) := by
      rw [← hb0, hres, ← hf]
      rfl
    intro i
    have := congrFun (List.ofFn_injective (Option.some.inj this)) i
    simp only [Ap.maskB, hobs i, decide_true, mask_true] at this
    exact Fl.fin.inj this
  have hcell : ∀ j, residualB (Ap.maskX P X) (fun j => .fin (q j)) (fun i => .fin (b i)) i j
      = Ap.maskX P (fun j i r => (X j i r - Q j) - apBias P X Q i) j i 0 := by
    intro j
    have := hsum j i
    rw [e1, e2] at this
    have hcell : residualB (Ap.maskX P X) (fun j => .fin (q j)) (fun i => .fin (b i)) = meanMatrix (Ap.maskX P fun j i r => X j i r - q j - b i) := by
      unfold residualB
      congr 1
      funext j i r
      unfold Ap.maskX
      cases P j i r <;> rfl
    rw [hcell, meanMatrix_one _ (maskX_clean P _)]
    unfold Ap.maskX
    congr 1
    linarith
  constructor
  · unfold rowL
    rw [show (residualB (Ap.maskX P X) (fun j => .fin (q j)) fun i => .fin (b i)) i = fun j =>
      Ap.maskX P (fun j i r => (X j i r - Q j) - apBias P X Q i) j i 0 from funext hcell]
    rw [← observerCells_one, nansum_observer]
    congr 1
    exact sum_sub_avg _ _
  · intro j
    rw [hcell]
    unfold Ap.maskX
    cases P j i 0 <;> rfl

/-- hypotheses of C104 on the array of the examples -/
example (sd : StdFormula) : ∃ res, runAPWith sd (arrReader 2 2 1 exArr) {} = .ok res :=
  (C27_succeeds_iff sd (arrReader 2 2 1 exArr) (arr_harmless _ _ _ _) _ rfl exArr_rated.1 none).1 exArr_rated.2.1

/-- votes of two observers, the first one with two repetitions -/
def repeatArr : Arr3 (Fl ℚ) 1 2 2 := fun _ i r => if i = 0 then .fin 1 else if r = 0 then .fin 4 else .nan

/-- **C104, refuted.** With repetitions the residues of MOS shown for a video need not add up to 0: of the votes 1, 1 by one observer
and 4 by the other the mean is 2, and the residues are -1 and 2. -/
theorem C104_refuted_repeats :
    meanAlongS repeatArr 0 = .fin 2 ∧ Np.nansum (colL (Plots.residual repeatArr (meanAlongS repeatArr)) 0) = .fin 1 := by
  decide +kernel

example : rawCounts repeatArr = .ok [(0, .fin 1, 1), (0, .fin 4, 1)] := by decide +kernel
example : rawCountsPerSubject repeatArr = .ok [(0, .fin 1, 1), (1, .fin 4, 1)] := by decide +kernel
example : rawCounts (fun _ _ _ => .nan : Arr3 (Fl ℚ) 2 2 1) = .error .value := by decide +kernel
example : nrows 28 = 5 ∧ ncols 28 = 6 := by decide +kernel

end runs
end Sureal.Props
