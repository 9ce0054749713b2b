import Verif.Props.MleGrad
import Verif.Props.ApLik
import Verif.Spec.Criteria
/-! # C120: log-likelihoods and criteria of the mean opinion scores and of the alternating projection -/
set_option linter.unusedSectionVars false
namespace Sureal.Props
open Sureal Spec Ap
variable {κ : Type} {E S R : ℕ}

/-! ### one density -/

theorem exp_nan : (Fl.nan : Fl ℝ).exp = .nan := rfl
theorem log_nan : (Fl.nan : Fl ℝ).log = .nan := rfl

theorem gaussian_fin (x μ : ℝ) {σ : ℝ} (h : 0 < σ) :
    (gaussian (.fin x) (.fin μ) (.fin σ)).log = .fin (Real.log (normalDensity μ (σ ^ 2) x)) := by
  have hw : 0 < σ ^ 2 + (0 : ℝ) ^ 2 := by positivity
  have := log_gaussian x μ σ 0 hw
  rw [Mle.vadd_fin, Fl.sqrt_fin hw.le] at this
  rw [show MathFn.sqrt (σ ^ 2 + (0 : ℝ) ^ 2) = σ from by
    show Real.sqrt _ = _
    rw [show σ ^ 2 + (0 : ℝ) ^ 2 = σ ^ 2 by ring, Real.sqrt_sq h.le]] at this
  rw [this]
  norm_num

theorem gaussian_nan (m s : Fl ℝ) : (gaussian .nan m s).log = .nan := by
  unfold gaussian
  have h1 : (Fl.nan - m : Fl ℝ) = .nan := by cases m <;> rfl
  rw [h1]
  simp [exp_nan, log_nan]

theorem gaussian_scale_nan (x m : Fl ℝ) : (gaussian x m .nan).log = .nan := by
  unfold gaussian
  simp [exp_nan, log_nan]

/-- a scale of 0 at the mean: infinity times NaN -/
theorem gaussian_scale_zero (x : ℝ) : (gaussian (.fin x) (.fin x) (.fin 0) : Fl ℝ).log = .nan := by
  unfold gaussian
  have h1 : (-((Fl.fin x - Fl.fin x : Fl ℝ).sq) / (((2 : ℕ) : Fl ℝ) * (Fl.fin (0 : ℝ)).sq)) = .nan := by
    rw [Fl.fin_sub, Fl.sq_fin, Fl.sq_fin, Fl.natCast_def, Fl.fin_mul, Fl.fin_neg]
    simp [HDiv.hDiv, Div.div, Fl.div]
  rw [h1]
  simp [exp_nan, log_nan]

/-! ### mean opinion scores -/

theorem present_map (f : Fl ℝ → Fl ℝ) (g : ℝ → ℝ) (l : List (Fl ℝ)) (hc : ∀ x ∈ l, NumOrNan x) (hn : f .nan = .nan)
    (hf : ∀ v, .fin v ∈ l → f (.fin v) = .fin (g v)) : present (l.map f) = (present l).map g := by
  induction l with
  | nil => rfl
  | cons x l ih =>
    have ih := ih (fun y hy => hc y (by simp [hy])) (fun v hv => hf v (by simp [hv]))
    rcases hc x (by simp) with rfl | ⟨v, rfl⟩
    · rw [List.map_cons, hn]; exact ih
    · rw [List.map_cons, hf v (by simp)]
      show g v :: present (l.map f) = g v :: (present l).map g
      rw [ih]

theorem present_nans (l : List (Fl ℝ)) (h : ∀ x ∈ l, x = .nan) : present l = [] := by
  induction l with
  | nil => rfl
  | cons x l ih =>
    rw [h x (by simp)]
    exact ih fun y hy => h y (by simp [hy])

theorem videoCells_map (a : Arr3 (Fl ℝ) E S R) (f : Fin E → Fl ℝ → Fl ℝ) (e : Fin E) :
    videoCells (fun e s r => f e (a e s r)) e = (videoCells a e).map (f e) := by
  unfold videoCells
  rw [List.map_flatten, List.map_ofFn]
  congr 1
  apply congrArg
  funext s
  simp only [Function.comp_apply, List.map_ofFn]
  rfl

theorem ravel3_videos (a : Arr3 (Fl ℝ) E S R) : ravel3 a = (List.finRange E).flatMap fun e => videoCells a e := by
  unfold ravel3
  rw [List.flatMap_def, ← List.ofFn_eq_map]
  rfl

theorem mem_present {l : List (Fl ℝ)} {v : ℝ} : v ∈ present l ↔ Fl.fin v ∈ l := by
  unfold present
  rw [List.mem_filterMap]
  constructor
  · rintro ⟨x, hx, h⟩
    cases x <;> simp [Fl.val?] at h
    subst h; exact hx
  · exact fun h => ⟨_, h, rfl⟩

theorem sqDev_nonneg (l : List ℝ) : 0 ≤ sqDev l := List.sum_nonneg (by
  intro x hx
  obtain ⟨y, -, rfl⟩ := List.mem_map.mp hx
  positivity)

theorem sampleVar_nonneg {l : List ℝ} (h : 2 ≤ l.length) : 0 ≤ sampleVar l := by
  unfold sampleVar
  have : (2 : ℝ) ≤ l.length := by exact_mod_cast h
  exact div_nonneg (sqDev_nonneg l) (by linarith)

theorem eq_mean_of_sqDev {l : List ℝ} (h : sqDev l = 0) {x : ℝ} (hx : x ∈ l) : x = mean l := by
  unfold sqDev at h
  have := List.all_zero_of_le_zero_le_of_sum_eq_zero (l := l.map fun x => (x - mean l) ^ 2) (by
    intro y hy
    obtain ⟨z, -, rfl⟩ := List.mem_map.mp hy
    positivity) h (List.mem_map.mpr ⟨x, hx, rfl⟩)
  have := pow_eq_zero_iff (n := 2) (by norm_num) |>.mp this
  linarith

/-- what the votes on one video contribute -/
noncomputable def videoLogLik (l : List ℝ) : ℝ :=
  if 2 ≤ l.length ∧ 0 < sampleVar l then (l.map fun x => Real.log (normalDensity (mean l) (sampleVar l) x)).sum else 0

theorem mos_video (a : Arr3 (Fl ℝ) E S R) (e : Fin E) (hc : ∀ s r, NumOrNan (a e s r)) :
    Np.Clean ((videoCells a e).map fun x => (gaussian x (meanAlongS a e) (Np.nanstd 1 (rowL (stack1 a) e))).log) ∧
    (present ((videoCells a e).map fun x => (gaussian x (meanAlongS a e) (Np.nanstd 1 (rowL (stack1 a) e))).log)).sum =
      videoLogLik (present (videoCells a e)) := by
  have hcl : ∀ x ∈ videoCells a e, NumOrNan x := by
    intro x hx
    obtain ⟨s, r, rfl⟩ := (mem_videoCells a e x).mp hx
    exact hc s r
  rw [nanstd1_row a e hc, meanAlongS_spec a e hc]
  have hnan : (∀ x ∈ videoCells a e, (gaussian x (meanOrNan (videoCells a e)) (sampleStdOrNan (videoCells a e))).log = .nan) →
      Np.Clean ((videoCells a e).map fun x => (gaussian x (meanOrNan (videoCells a e)) (sampleStdOrNan (videoCells a e))).log) ∧
      (present ((videoCells a e).map fun x => (gaussian x (meanOrNan (videoCells a e)) (sampleStdOrNan (videoCells a e))).log)).sum = 0 := by
    intro h
    refine ⟨fun y hy => ?_, ?_⟩
    · obtain ⟨x, hx, rfl⟩ := List.mem_map.mp hy
      exact Or.inl (h x hx)
    · rw [present_nans]
      · rfl
      · intro y hy
        obtain ⟨x, hx, rfl⟩ := List.mem_map.mp hy
        exact h x hx
  unfold videoLogLik
  by_cases h2 : 2 ≤ (present (videoCells a e)).length
  · have hstd : sampleStdOrNan (videoCells a e) = .fin (Real.sqrt (sampleVar (present (videoCells a e)))) := by
      unfold sampleStdOrNan
      match h : present (videoCells a e) with
      | [] => simp [h] at h2
      | [x] => simp [h] at h2
      | x :: y :: xs => rfl
    have hmean : meanOrNan (videoCells a e) = .fin (mean (present (videoCells a e))) := by
      unfold meanOrNan
      match h : present (videoCells a e) with
      | [] => simp [h] at h2
      | x :: xs => rfl
    by_cases hv : 0 < sampleVar (present (videoCells a e))
    · rw [if_pos ⟨h2, hv⟩]
      have hval : ∀ v : ℝ, (gaussian (.fin v) (meanOrNan (videoCells a e)) (sampleStdOrNan (videoCells a e))).log =
          .fin (Real.log (normalDensity (mean (present (videoCells a e))) (sampleVar (present (videoCells a e))) v)) := by
        intro v
        rw [hstd, hmean, gaussian_fin _ _ (Real.sqrt_pos.mpr hv), Real.sq_sqrt hv.le]
      refine ⟨fun y hy => ?_, ?_⟩
      · obtain ⟨x, hx, rfl⟩ := List.mem_map.mp hy
        rcases hcl x hx with rfl | ⟨v, rfl⟩
        · exact Or.inl (gaussian_nan _ _)
        · exact Or.inr ⟨_, hval v⟩
      · rw [present_map _ _ _ hcl (gaussian_nan _ _) (fun v _ => hval v)]
    · rw [if_neg (fun h => hv h.2)]
      have hz : sampleVar (present (videoCells a e)) = 0 := le_antisymm (not_lt.mp hv) (sampleVar_nonneg h2)
      refine hnan fun x hx => ?_
      rcases hcl x hx with rfl | ⟨v, rfl⟩
      · exact gaussian_nan _ _
      · have hsq : sqDev (present (videoCells a e)) = 0 := by
          unfold sampleVar at hz
          have : (2 : ℝ) ≤ ((present (videoCells a e)).length : ℝ) := by exact_mod_cast h2
          rcases div_eq_zero_iff.mp hz with h | h
          · exact h
          · linarith
        rw [hstd, hmean, hz, Real.sqrt_zero, ← eq_mean_of_sqDev hsq (mem_present.mpr hx)]
        exact gaussian_scale_zero v
  · rw [if_neg (fun h => h2 h.1)]
    have hstd : sampleStdOrNan (videoCells a e) = .nan := by
      unfold sampleStdOrNan
      match h : present (videoCells a e) with
      | [] => rfl
      | [x] => rfl
      | x :: y :: xs => simp [h] at h2
    refine hnan fun x _ => ?_
    rw [hstd]
    exact gaussian_scale_nan _ _

theorem present_flatMap {α : Type} (l : List α) (f : α → List (Fl ℝ)) : present (l.flatMap f) = l.flatMap fun x => present (f x) := by
  unfold present
  rw [List.filterMap_flatMap]

/-- the log-likelihood, the degrees of freedom and the criteria of mean opinion scores -/
theorem mosAndStats_criteria (dofFn : ℕ → ℕ → ℕ → ℕ) (a orig : Arr3D (Fl ℝ)) (hc : ∀ e s r, NumOrNan (a.get e s r))
    (hco : ∀ e s r, NumOrNan (orig.get e s r)) (N No : ℕ) (hN : N = ∑ e, (present (videoCells a.get e)).length)
    (hNo : No = ∑ e, (present (videoCells orig.get e)).length) (h1 : 0 < N) (h2 : 0 < No) :
    ∀ res : Result κ ℝ, res = mosAndStats dofFn a orig →
      res.dof = some (.fin ((dofFn orig.E orig.S orig.R : ℝ) / No)) ∧
      res.loglikelihood = some (.fin ((∑ e, videoLogLik (present (videoCells a.get e))) / N)) ∧
      res.aic = some (.fin (2 * ((dofFn orig.E orig.S orig.R : ℝ) / No) - 2 * ((∑ e, videoLogLik (present (videoCells a.get e))) / N))) ∧
      res.bic = some (.fin (Real.log No * ((dofFn orig.E orig.S orig.R : ℝ) / No) -
        2 * ((∑ e, videoLogLik (present (videoCells a.get e))) / N))) := by
  rintro res rfl
  have hN' : ((N : ℕ) : ℝ) ≠ 0 := by exact_mod_cast h1.ne'
  have hNo' : (0 : ℝ) < ((No : ℕ) : ℝ) := by exact_mod_cast h2
  have hcnt : ∀ (b : Arr3D (Fl ℝ)), (∀ e s r, NumOrNan (b.get e s r)) →
      Np.countNotNan (ravel3 b.get) = ∑ e, (present (videoCells b.get e)).length := by
    intro b hb
    rw [Np.countNotNan_eq, ravel3_videos, present_flatMap, List.length_flatMap, ← List.ofFn_eq_map, List.sum_ofFn]
    intro x hx
    rw [ravel3_videos, List.mem_flatMap] at hx
    obtain ⟨e, -, hx⟩ := hx
    obtain ⟨s, r, rfl⟩ := (mem_videoCells _ _ _).mp hx
    exact hb e s r
  have hsum : Np.nansum (ravel3 fun e s r => (gaussian (a.get e s r) (meanAlongS a.get e) (Np.nanstd 1 (rowL (stack1 a.get) e))).log) =
      .fin (∑ e, videoLogLik (present (videoCells a.get e))) := by
    have hv := fun e => mos_video a.get e (hc e)
    rw [ravel3_videos]
    have he : ∀ e, videoCells (fun e s r => (gaussian (a.get e s r) (meanAlongS a.get e) (Np.nanstd 1 (rowL (stack1 a.get) e))).log) e =
        (videoCells a.get e).map fun x => (gaussian x (meanAlongS a.get e) (Np.nanstd 1 (rowL (stack1 a.get) e))).log :=
      fun e => videoCells_map a.get (fun e x => (gaussian x (meanAlongS a.get e) (Np.nanstd 1 (rowL (stack1 a.get) e))).log) e
    simp only [he]
    rw [Np.nansum_eq, present_flatMap, List.flatMap_def, List.sum_flatten, List.map_map, ← List.ofFn_eq_map, List.sum_ofFn]
    · congr 1
      exact Finset.sum_congr rfl fun e _ => (hv e).2
    · intro x hx
      rw [List.mem_flatMap] at hx
      obtain ⟨e, -, hx⟩ := hx
      exact (hv e).1 x hx
  have hdof : (((dofFn orig.E orig.S orig.R : ℕ) : Fl ℝ) / ((Np.countNotNan (ravel3 orig.get) : ℕ) : Fl ℝ)) =
      .fin ((dofFn orig.E orig.S orig.R : ℝ) / No) := by
    rw [hcnt orig hco, ← hNo, Fl.natCast_def, Fl.natCast_def, Fl.fin_div hNo'.ne']
  have hll : (Np.nansum (ravel3 fun e s r => (gaussian (a.get e s r) (meanAlongS a.get e) (Np.nanstd 1 (rowL (stack1 a.get) e))).log) /
      ((Np.countNotNan (ravel3 a.get) : ℕ) : Fl ℝ)) = .fin ((∑ e, videoLogLik (present (videoCells a.get e))) / N) := by
    rw [hsum, hcnt a hc, ← hN, Fl.natCast_def, Fl.fin_div hN']
  refine ⟨congrArg some hdof, congrArg some hll, ?_, ?_⟩
  · show some (((2 : ℕ) : Fl ℝ) * (_ / _) - ((2 : ℕ) : Fl ℝ) * (_ / _)) = _
    rw [hdof, hll, Fl.natCast_def, Fl.fin_mul, Fl.fin_mul, Fl.fin_sub]
    norm_num
  · show some ((((Np.countNotNan (ravel3 orig.get) : ℕ) : Fl ℝ)).log * (_ / _) - ((2 : ℕ) : Fl ℝ) * (_ / _)) = _
    rw [hdof, hll, hcnt orig hco, ← hNo, Fl.natCast_def, Fl.natCast_def, Fl.log_fin hNo', Fl.fin_mul, Fl.fin_mul, Fl.fin_sub]
    rw [show ((2 : ℕ) : ℝ) = 2 by norm_num]
    rfl

/-- **C120.** The log-likelihood MOS reports, times the number of votes, is the sum over the videos of the logarithms of the normal
densities of the votes at the mean and the sample variance of the video, where a video with a single vote or with equal votes adds 0.
The criteria follow from it with two parameters for each video. -/
theorem C120_mos (rd : Reader κ ℝ) (a : Arr3D (Fl ℝ)) (res : Result κ ℝ) (ha : rd.scores = .ok a) (hr : runMOS rd {} = .ok res)
    (hc : ∀ e s r, NumOrNan (a.get e s r)) (votes : Fin a.E → List ℝ) (hv : ∀ e, votes e = present (videoCells a.get e))
    (N : ℕ) (hN : N = ∑ e, (votes e).length) (hpos : 0 < N) :
    ∃ ll : ℝ, res.loglikelihood = some (.fin ll) ∧
      N * ll = ∑ e, (if 2 ≤ (votes e).length ∧ 0 < sampleVar (votes e) then
        ((votes e).map fun x => Real.log (normalDensity (mean (votes e)) (sampleVar (votes e)) x)).sum else 0) ∧
      res.dof = some (.fin (2 * a.E / N)) ∧
      res.aic = some (.fin (2 * (2 * a.E / N) - 2 * ll)) ∧ res.bic = some (.fin (Real.log N * (2 * a.E / N) - 2 * ll)) := by
  obtain rfl : votes = fun e => present (videoCells a.get e) := funext hv
  have hN0 : ((N : ℕ) : ℝ) ≠ 0 := by exact_mod_cast hpos.ne'
  rw [runMOS_default ha hr]
  obtain ⟨h1, h2, h3, h4⟩ := mosAndStats_criteria (κ := κ) (fun E _ _ => E * 2) a a hc hc N N hN hN hpos hpos _ rfl
  have he : (((a.E * 2 : ℕ)) : ℝ) = 2 * a.E := by push_cast; ring
  rw [he] at h1 h3 h4
  exact ⟨_, h2, by rw [mul_div_cancel₀ _ hN0]; rfl, h1, h3, h4⟩

/-- **C120, in part.** If on every rated video two votes differ, the log-likelihood is the average of the logarithms of the densities of
all votes. The full claim drops this hypothesis; `C120_mos_refuted` shows that it is false. -/
theorem C120_mos_partial (rd : Reader κ ℝ) (a : Arr3D (Fl ℝ)) (res : Result κ ℝ) (ha : rd.scores = .ok a) (hr : runMOS rd {} = .ok res)
    (hc : ∀ e s r, NumOrNan (a.get e s r)) (votes : Fin a.E → List ℝ) (hv : ∀ e, votes e = present (videoCells a.get e))
    (N : ℕ) (hN : N = ∑ e, (votes e).length) (hpos : 0 < N) (hd : ∀ e, votes e ≠ [] → ∃ x ∈ votes e, ∃ y ∈ votes e, x ≠ y) :
    ∃ ll : ℝ, res.loglikelihood = some (.fin ll) ∧
      N * ll = ∑ e, ((votes e).map fun x => Real.log (normalDensity (mean (votes e)) (sampleVar (votes e)) x)).sum := by
  obtain ⟨ll, h1, h2, -⟩ := C120_mos rd a res ha hr hc votes hv N hN hpos
  refine ⟨ll, h1, h2.trans (Finset.sum_congr rfl fun e _ => ?_)⟩
  by_cases hn : votes e = []
  · rw [hn]; simp
  · obtain ⟨x, hx, y, hy, hxy⟩ := hd e hn
    have hl : 2 ≤ (votes e).length := by
      match h : votes e with
      | [] => exact absurd h hn
      | [z] =>
        rw [h, List.mem_singleton] at hx hy
        exact absurd (hx.trans hy.symm) hxy
      | _ :: _ :: _ => simp
    rw [if_pos]
    refine ⟨hl, lt_of_le_of_ne (sampleVar_nonneg hl) fun h0 => hxy ?_⟩
    have hsq : sqDev (votes e) = 0 := by
      unfold sampleVar at h0
      have : (2 : ℝ) ≤ ((votes e).length : ℝ) := by exact_mod_cast hl
      rcases div_eq_zero_iff.mp h0.symm with h | h
      · exact h
      · linarith
    rw [eq_mean_of_sqDev hsq hx, eq_mean_of_sqDev hsq hy]

/-- two videos with votes 1, 3 and 4, 4 -/
def agreeArr : Arr3 (Fl ℝ) 2 2 1 := fun e s _ => if e = 0 then (if s = 0 then .fin 1 else .fin 3) else .fin 4

theorem agree_clean : ∀ e s r, NumOrNan (agreeArr e s r) := by
  intro e s r
  unfold agreeArr
  split
  · split <;> exact Or.inr ⟨_, rfl⟩
  · exact Or.inr ⟨_, rfl⟩

theorem agree_votes : present (videoCells agreeArr 0) = [1, 3] ∧ present (videoCells agreeArr 1) = [4, 4] := by
  constructor <;> simp [videoCells, agreeArr, List.ofFn_succ, present, Fl.val?]

/-- the run on them succeeds, and of the four votes two contribute -/
theorem agree_run : ∃ res : Result String ℝ, runMOS (arrReader 2 2 1 agreeArr) {} = .ok res ∧
    ∃ ll : ℝ, res.loglikelihood = some (.fin ll) ∧ 4 * ll = 2 * Real.log (normalDensity 2 2 1) := by
  obtain ⟨res, hr⟩ : ∃ res : Result String ℝ, runMOS (arrReader 2 2 1 agreeArr) {} = .ok res := ⟨_, rfl⟩
  obtain ⟨h0, h1⟩ := agree_votes
  have hlen : (4 : ℕ) = ∑ e : Fin 2, (present (videoCells agreeArr e)).length := by rw [Fin.sum_univ_two, h0, h1]; rfl
  obtain ⟨ll, hl, h2, -⟩ := C120_mos (arrReader 2 2 1 agreeArr) ⟨2, 2, 1, agreeArr⟩ res rfl hr agree_clean
    (fun e => present (videoCells agreeArr e)) (fun _ => rfl) 4 hlen (by norm_num)
  refine ⟨res, hr, ll, hl, ?_⟩
  have : ((4 : ℕ) : ℝ) = 4 := by norm_num
  rw [this] at h2
  rw [h2, Fin.sum_univ_two, h0, h1, if_pos (by norm_num [sampleVar, sqDev, mean]), if_neg (by norm_num [sampleVar, sqDev, mean])]
  norm_num [sampleVar, sqDev, mean, normalDensity]
  ring

/-- **C120, refuted.** Votes 1, 3 on one video and 4, 4 on another: only the first two contribute to the sum which is divided by the
number of all four. So the log-likelihood is half of that of the first video alone, and the claim that it is an average over the votes
fails for every density the two equal votes might be given whose logarithm is not 0. -/
theorem C120_mos_refuted (d : ℝ) (hd : Real.log d ≠ 0) :
    ∃ res : Result String ℝ, runMOS (arrReader 2 2 1 agreeArr) {} = .ok res ∧
      res.loglikelihood ≠ some (.fin ((Real.log (normalDensity 2 2 1) + Real.log (normalDensity 2 2 3) + Real.log d + Real.log d) / 4)) := by
  obtain ⟨res, hr, ll, h1, h2⟩ := agree_run
  refine ⟨res, hr, ?_⟩
  rw [h1]
  intro h
  have h := Fl.fin_inj.mp (Option.some.inj h)
  have h3 : normalDensity 2 2 3 = normalDensity 2 2 1 := by unfold normalDensity; norm_num
  rw [h3] at h
  apply hd
  linarith

/-- two videos whose votes differ -/
example : ∃ res : Result String ℝ, runMOS (arrReader 2 2 1 fun e s _ => .fin (![![1, 3], ![4, 2]] e s)) {} = .ok res ∧
    ∃ ll : ℝ, res.loglikelihood = some (.fin ll) ∧ 4 * ll = ∑ e : Fin 2, ((![[1, 3], [4, 2]] e).map fun x =>
      Real.log (normalDensity (mean (![[1, 3], [4, 2]] e)) (sampleVar (![[1, 3], [4, 2]] e)) x)).sum := by
  obtain ⟨res, hr⟩ : ∃ res : Result String ℝ, runMOS (arrReader 2 2 1 fun e s _ => .fin (![![1, 3], ![4, 2]] e s)) {} = .ok res := ⟨_, rfl⟩
  obtain ⟨ll, h1, h2⟩ := C120_mos_partial _ ⟨2, 2, 1, fun e s _ => .fin (![![1, 3], ![4, 2]] e s)⟩ res rfl hr (fun _ _ _ => Or.inr ⟨_, rfl⟩)
    ![[1, 3], [4, 2]] (by
      intro e
      dsimp only at e
      fin_cases e <;> simp [videoCells, List.ofFn_succ, present, Fl.val?]) 4 (by simp) (by norm_num) (by
      intro e _
      dsimp only at e
      fin_cases e
      · exact ⟨1, by simp, 3, by simp, by norm_num⟩
      · exact ⟨4, by simp, 2, by simp, by norm_num⟩)
  exact ⟨res, hr, ll, h1, by simpa using h2⟩

/-! ### alternating projection -/

theorem sum_flatMap_real {n : ℕ} (u : Fin n → List ℝ) : ((List.finRange n).flatMap u).sum = ∑ k, (u k).sum := by
  rw [List.flatMap_def, List.sum_flatten, List.map_map, ← List.ofFn_eq_map, List.sum_ofFn]
  rfl

theorem loglik_list {J I R : ℕ} (f : Fin J → Fin I → Fin R → List ℝ) :
    Np.sum ((List.finRange J).flatMap fun j => (List.finRange I).flatMap fun i => (List.finRange R).flatMap fun r => (f j i r).map Fl.fin) =
      .fin (∑ j, ∑ i, ∑ r, (f j i r).sum) := by
  have : ((List.finRange J).flatMap fun j => (List.finRange I).flatMap fun i => (List.finRange R).flatMap fun r => (f j i r).map Fl.fin) =
      (((List.finRange J).flatMap fun j => (List.finRange I).flatMap fun i => (List.finRange R).flatMap fun r => f j i r).map Fl.fin) := by
    simp only [List.map_flatMap]
  rw [this, Np.sum_map_fin, sum_flatMap_real]
  simp only [sum_flatMap_real]

/-- the log-likelihood at finite parameters with positive inconsistencies -/
theorem loglik_fin {J I R : ℕ} (P : Fin J → Fin I → Fin R → Bool) (X : Fin J → Fin I → Fin R → ℝ) (q : Fin J → ℝ) (b v : Fin I → ℝ)
    (hv : ∀ j i r, P j i r = true → 0 < v i) :
    loglik (fun j i r => mask (P j i r) (X j i r)) (fun j => .fin (q j)) (fun i => .fin (b i)) (fun i => .fin (v i)) =
      .fin (∑ j, ∑ i, ∑ r, if P j i r = true then Real.log (normalDensity (q j + b i) (v i ^ 2) (X j i r)) else 0) := by
  unfold loglik
  have : ∀ j i r, (if (mask (P j i r) (X j i r)).isNan then []
      else [(normPdf (mask (P j i r) (X j i r)) (Fl.fin (q j) + Fl.fin (b i)) (Fl.fin (v i))).log]) =
      ((if P j i r = true then [Real.log (normalDensity (q j + b i) (v i ^ 2) (X j i r))] else []).map Fl.fin) := by
    intro j i r
    cases hP : P j i r with
    | false => rfl
    | true =>
      simp only [mask_true, Fl.isNan, if_true, Bool.false_eq_true, if_false, List.map_cons, List.map_nil]
      unfold normPdf
      rw [Fl.zero_def, Fl.lt_fin, decide_eq_true (hv j i r hP), if_pos rfl, Fl.fin_add, gaussian_fin _ _ (hv j i r hP)]
  simp only [this]
  rw [loglik_list]
  congr 1
  refine Finset.sum_congr rfl fun j _ => Finset.sum_congr rfl fun i _ => Finset.sum_congr rfl fun r _ => ?_
  split <;> simp

/-- with a vote of an observer without inconsistency it is NaN -/
theorem loglik_nan {J I R : ℕ} (P : Fin J → Fin I → Fin R → Bool) (X : Fin J → Fin I → Fin R → ℝ) (q : Fin J → ℝ) (b v : Fin I → ℝ)
    (hv : ∃ j i r, P j i r = true ∧ v i ≤ 0) :
    loglik (fun j i r => mask (P j i r) (X j i r)) (fun j => .fin (q j)) (fun i => .fin (b i)) (fun i => .fin (v i)) = .nan := by
  obtain ⟨j, i, r, hP, hv⟩ := hv
  unfold loglik
  apply sum_of_nan_mem
  refine List.mem_flatMap.mpr ⟨j, List.mem_finRange _, List.mem_flatMap.mpr ⟨i, List.mem_finRange _, List.mem_flatMap.mpr
    ⟨r, List.mem_finRange _, ?_⟩⟩⟩
  simp only [hP, mask_true, Fl.isNan, Bool.false_eq_true, if_false, List.mem_singleton]
  unfold normPdf
  rw [Fl.zero_def, Fl.lt_fin, decide_eq_false (by linarith)]
  rfl

/-- **C120.** Alternating projection (P910 and its other names) with the reported scores, biases and inconsistencies: if the
inconsistencies of the observers are positive, the reported log-likelihood times the number of votes is the sum of the logarithms of the
normal densities of the votes, at the score plus the bias, with the inconsistency as standard deviation; the criteria follow from it with
one parameter for each video and two for each observer and repetition. If one of them is 0, the log-likelihood and both criteria are NaN. -/
theorem C120_projection_partial (sd : StdFormula) (rd : Reader κ ℝ) (z : Flag) (res : Result κ ℝ)
    (hr : runAPWith sd rd { forceSubjbiasZeromean := z } = .ok res) (a : Arr3D (Fl ℝ)) (ha : rd.scores = .ok a)
    (P : Fin a.E → Fin a.S → Fin a.R → Bool) (X : Fin a.E → Fin a.S → Fin a.R → ℝ)
    (hX : ∀ e s r, a.get e s r = mask (P e s r) (X e s r)) (hne : ∃ e s r, P e s r = true)
    (q : Fin a.E → ℝ) (b v : Fin a.S → ℝ) (hq : res.qualityScores = List.ofFn fun e => .fin (q e))
    (hb : res.observerBias = some (List.ofFn fun s => .fin (b s)))
    (hv : res.observerInconsistency = some (List.ofFn fun s => .fin (v s))) :
    ((∀ e s r, P e s r = true → 0 < v s) → ∃ ll : ℝ, res.loglikelihood = some (.fin ll) ∧
      voteCount P * ll = ∑ e, ∑ s, ∑ r, (if P e s r = true then Real.log (normalDensity (q e + b s) (v s ^ 2) (X e s r)) else 0) ∧
      res.aic = some (.fin (2 * ((a.E + 2 * a.S * a.R) / voteCount P) - 2 * ll)) ∧
      res.bic = some (.fin (Real.log (voteCount P) * ((a.E + 2 * a.S * a.R) / voteCount P) - 2 * ll))) ∧
    ((∃ e s r, P e s r = true ∧ v s ≤ 0) → res.loglikelihood = some .nan ∧ res.aic = some .nan ∧ res.bic = some .nan) := by
  obtain ⟨p, f, hp, hf, hres⟩ := ap_run hr
  rw [preprocess_zeromean ha z] at hp
  cases hp
  have hpos : 0 < voteCount P := by
    obtain ⟨e, s, r, hP⟩ := hne
    unfold voteCount
    refine Finset.sum_pos' (fun _ _ => Nat.zero_le _) ⟨e, Finset.mem_univ _, ?_⟩
    refine Finset.sum_pos' (fun _ _ => Nat.zero_le _) ⟨s, Finset.mem_univ _, ?_⟩
    refine Finset.sum_pos' (fun _ _ => Nat.zero_le _) ⟨r, Finset.mem_univ _, ?_⟩
    rw [if_pos hP]; exact one_pos
  have hposR : (0 : ℝ) < voteCount P := by exact_mod_cast hpos
  have hget : a.get = maskX P X := by funext e s r; exact hX e s r
  have hcnt : Np.countNotNan (ravel3 a.get) = voteCount P := by rw [hget, count_mask]; rfl
  rw [hres] at hq hb hv ⊢
  rw [post_plain rfl rfl] at hq
  have hq' := ofFn_inj hq
  have hb' := ofFn_inj (Option.some.inj (show some (List.ofFn (centre _ f.s f.b).2) = _ from hb))
  have hv' := ofFn_inj (Option.some.inj (show some (List.ofFn f.vi) = _ from hv))
  have hdof : (((a.E + a.S * a.R * 2 : ℕ) : Fl ℝ) / ((Np.countNotNan (ravel3 a.get) : ℕ) : Fl ℝ)) =
      .fin (((a.E : ℝ) + 2 * a.S * a.R) / voteCount P) := by
    rw [hcnt, Fl.natCast_def, Fl.natCast_def, Fl.fin_div hposR.ne']
    congr 2
    push_cast; ring
  have hll : ∀ L : Fl ℝ, loglik (fun e s r => mask (P e s r) (X e s r)) (fun e => .fin (q e)) (fun s => .fin (b s)) (fun s => .fin (v s)) = L →
      (loglik a.get (centre (forced ({ forceSubjbiasZeromean := z } : Opts ℝ)) f.s f.b).1 (centre (forced ({ forceSubjbiasZeromean := z } : Opts ℝ)) f.s f.b).2 f.vi /
        ((Np.countNotNan (ravel3 a.get) : ℕ) : Fl ℝ)) = L / .fin (voteCount P : ℝ) := by
    rintro L rfl
    rw [hcnt, hq', hb', hv', hget, Fl.natCast_def]
    rfl
  refine ⟨fun h => ?_, fun h => ?_⟩
  · have hl := hll _ (loglik_fin P X q b v h)
    rw [Fl.fin_div hposR.ne'] at hl
    refine ⟨_, congrArg some hl, ?_, ?_, ?_⟩
    · rw [mul_div_cancel₀ _ hposR.ne']
    · show some (((2 : ℕ) : Fl ℝ) * (_ / _) - ((2 : ℕ) : Fl ℝ) * (_ / _)) = _
      rw [hdof, hl, Fl.natCast_def, Fl.fin_mul, Fl.fin_mul, Fl.fin_sub]
      rfl
    · show some ((((Np.countNotNan (ravel3 a.get) : ℕ) : Fl ℝ)).log * (_ / _) - ((2 : ℕ) : Fl ℝ) * (_ / _)) = _
      rw [hdof, hl, hcnt, Fl.natCast_def, Fl.natCast_def, Fl.log_fin hposR, Fl.fin_mul, Fl.fin_mul, Fl.fin_sub]
      rfl
  · have hl := hll _ (loglik_nan P X q b v h)
    rw [Fl.nan_div] at hl
    refine ⟨congrArg some hl, ?_, ?_⟩
    · show some (((2 : ℕ) : Fl ℝ) * (_ / _) - ((2 : ℕ) : Fl ℝ) * (_ / _)) = _
      rw [hl]; simp
    · show some ((((Np.countNotNan (ravel3 a.get) : ℕ) : Fl ℝ)).log * (_ / _) - ((2 : ℕ) : Fl ℝ) * (_ / _)) = _
      rw [hl]; simp

/-- **C120, refuted.** If every vote is a score plus a bias, the fit is perfect and the log-likelihood, AIC and BIC are NaN. -/
theorem C120_projection_refuted (sd : StdFormula) (rd : Reader κ ℝ) (hob : ObserversHarmless rd) (E S R : ℕ) (hE : 0 < E)
    (hS : 0 < S) (hR : 0 < R) (q : Fin E → ℝ) (b : Fin S → ℝ) (ha : rd.scores = .ok ⟨E, S, R, fun e s _ => .fin (q e + b s)⟩) (z : Flag) :
    ∃ res, runAPWith sd rd { forceSubjbiasZeromean := z } = .ok res ∧
      res.loglikelihood = some .nan ∧ res.aic = some .nan ∧ res.bic = some .nan := by
  obtain ⟨res, hr, h1, h2, h3, -⟩ := C28_additive_recovery sd rd hob E S R hE hS hR q b ha z
  exact ⟨res, hr, (C120_projection_partial sd rd z res hr ⟨E, S, R, fun e s _ => .fin (q e + b s)⟩ ha (fun _ _ _ => true)
    (fun e s _ => q e + b s) (fun _ _ _ => rfl) ⟨⟨0, hE⟩, ⟨0, hS⟩, ⟨0, hR⟩, rfl⟩ _ _ _ h1 h2 h3).2
      ⟨⟨0, hE⟩, ⟨0, hS⟩, ⟨0, hR⟩, rfl, le_refl _⟩⟩

/-- the refutation applies to two videos and three observers -/
example (sd : StdFormula) : ∃ res : Result String ℝ, runAPWith sd (arrReader 2 3 1 fun e s _ => .fin (![1, 4] e + ![0, 1, -4] s)) {} = .ok res ∧
    res.aic = some .nan := by
  obtain ⟨res, h1, -, h2, -⟩ := C120_projection_refuted sd _ (arr_harmless 2 3 1 fun e s _ => .fin (![1, 4] e + ![0, 1, -4] s)) 2 3 1
    (by norm_num) (by norm_num) (by norm_num) ![1, 4] ![0, 1, -4] rfl none
  exact ⟨res, h1, h2⟩

/-- the first case: two observers with opposite opinions on two videos, both inconsistent -/
example (sd : StdFormula) : ∃ res : Result String ℝ, runAPWith sd (arrReader 2 2 1 fun j i r => .fin (crossX j i r)) {} = .ok res ∧
    ∃ ll : ℝ, res.loglikelihood = some (.fin ll) ∧ 4 * ll = 4 * Real.log (normalDensity (1 / 2) (1 / 4) 0) := by
  obtain ⟨res, h1, h2, h3, h4⟩ := cross_run sd
  have hsq : ∀ i, apSpread everyVote crossX (fun _ => 1 / 2) (fun _ => 0) i ^ 2 = 1 / 4 := by
    intro i
    have := spread_sq everyVote crossX (fun _ => 1 / 2) i
    rw [cross_start.2, cross_meanSq] at this
    exact this
  have hpos : ∀ i, 0 < apSpread everyVote crossX (fun _ => 1 / 2) (fun _ => 0) i := by
    intro i
    have h0 : 0 ≤ apSpread everyVote crossX (fun _ => 1 / 2) (fun _ => 0) i := Real.sqrt_nonneg _
    refine lt_of_le_of_ne h0 fun h => ?_
    have := hsq i
    rw [← h] at this
    norm_num at this
  obtain ⟨ll, hl, h5, -⟩ := (C120_projection_partial sd _ none res h1 _ rfl everyVote crossX (fun _ _ _ => rfl) ⟨0, 0, 0, rfl⟩
    (fun _ => 1 / 2) (fun _ => 0) _ (by rw [h2]; simp [List.ofFn_succ, arrReader]) (by rw [h3]; simp [List.ofFn_succ, arrReader]) h4).1 (fun _ s _ _ => hpos s)
  refine ⟨res, h1, ll, hl, ?_⟩
  have hn : voteCount everyVote = 4 := rfl
  rw [hn] at h5
  push_cast at h5
  rw [h5]
  have hd : normalDensity (1 / 2) (1 / 4) 1 = normalDensity (1 / 2) (1 / 4) 0 := by unfold normalDensity; norm_num
  simp only [hsq, everyVote, if_true, add_zero]
  show ∑ e : Fin 2, ∑ s : Fin 2, ∑ r : Fin 1, _ = _
  simp [Fin.sum_univ_two, crossX]
  norm_num at hd ⊢
  rw [hd]
  ring

end Sureal.Props
