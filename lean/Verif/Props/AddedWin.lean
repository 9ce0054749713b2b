import Verif.Lemmas.AddedWin
import Verif.Props.BtConsistent
import Verif.Props.ThMin
/-!
# C166: what an additional win does to the scores from paired comparisons
-/
set_option linter.unusedSectionVars false
namespace Sureal.Props
open Spec Spec.BT Spec.Thurstone BtMath AddedWin Filter Topology
variable {M : ℕ} {A : Fin M → Fin M → ℝ}

theorem withWins_nonneg (hA : ∀ i j, 0 ≤ A i j) (i j : Fin M) {w : ℝ} (hw : 0 < w) (k l : Fin M) : 0 ≤ withWins A i j w k l := by
  unfold withWins
  have := hA k l
  split_ifs <;> linarith

theorem withWins_ford (hf : Ford A) (i j : Fin M) {w : ℝ} (hw : 0 < w) : Ford (withWins A i j w) := by
  intro a b
  refine Relation.ReflTransGen.mono (fun k l hkl => ?_) a b (hf a b)
  unfold withWins
  split_ifs <;> linarith

theorem ford_connected (hA : ∀ i j, 0 ≤ A i j) (hf : Ford A) : Connected A := by
  intro a b
  refine Relation.ReflTransGen.mono (fun k l hkl => ?_) a b (hf a b)
  unfold games
  linarith [hA l k]

/-- the chance to lose against a video that is `x` behind in logarithms of the strengths -/
noncomputable def loseChance (x : ℝ) : ℝ := 1 / (1 + Real.exp x)

theorem loseChance_log {a b : ℝ} (ha : 0 < a) (hb : 0 < b) : loseChance (Real.log a - Real.log b) = b / (a + b) := by
  unfold loseChance
  rw [Real.exp_sub, Real.exp_log ha, Real.exp_log hb]
  field_simp
  ring

theorem loseChance_anti : StrictAntiOn loseChance Set.univ := by
  intro x _ y _ hxy
  unfold loseChance
  have := Real.exp_lt_exp.mpr hxy
  have h0 := Real.exp_pos x
  exact one_div_lt_one_div_of_lt (by linarith) (by linarith)

theorem pull_likEq {p : Fin M → ℝ} (hp : ∀ i, 0 < p i) (h : LikEq A p) (k : Fin M) : pull loseChance A (fun i => Real.log (p i)) k = 0 := by
  have hk := h k
  unfold wins games at hk
  unfold pull
  have e : ∀ l, A k l * loseChance (Real.log (p k) - Real.log (p l)) - A l k * loseChance (Real.log (p l) - Real.log (p k)) =
      A k l - (A k l + A l k) * (p k / (p k + p l)) := by
    intro l
    rw [loseChance_log (hp k) (hp l), loseChance_log (hp l) (hp k)]
    have := hp k
    have := hp l
    rw [show p l + p k = p k + p l by ring]
    field_simp
    ring
  rw [Finset.sum_congr rfl fun l _ => e l, Finset.sum_sub_distrib, hk, sub_self]

/-- **C166, Bradley-Terry estimates.**  With additional wins of `i` over `j` the estimated strength of `i` rises and that of `j` falls; `i` loses ground to nobody, and
nobody loses ground to `j`. -/
theorem C166_estimate (hM : 2 ≤ M) (hA : ∀ i j, 0 ≤ A i j) (hf : Ford A) {i j : Fin M} (hij : i ≠ j) {w : ℝ} (hw : 0 < w) {p p' : Fin M → ℝ}
    (hp : IsMle A p) (hp' : IsMle (withWins A i j w) p') :
    p i < p' i ∧ p' j < p j ∧ (∀ k, p i / p k ≤ p' i / p' k) ∧ (∀ k, p k / p j ≤ p' k / p' j) ∧ p i / p j < p' i / p' j := by
  have hch : Change loseChance Set.univ A i j w (fun k => Real.log (p k)) (fun k => Real.log (p' k)) :=
    { anti := loseChance_anti
      pos := fun x _ => by unfold loseChance; positivity
      mem := fun _ _ => Set.mem_univ _
      mem' := fun _ _ => Set.mem_univ _
      nonneg := hA
      conn := ford_connected hA hf
      ne := hij
      wpos := hw
      eq := pull_likEq hp.1.pos (mle_likEq hM hA hf hp)
      eq' := pull_likEq hp'.1.pos (mle_likEq hM (withWins_nonneg hA i j hw) (withWins_ford hf i j hw) hp') }
  have q := hp.1.pos
  have q' := hp'.1.pos
  -- a comparison of changes of logarithms is one of ratios
  have conv : ∀ a b, Real.log (p' a) - Real.log (p a) ≤ Real.log (p' b) - Real.log (p b) ↔ p' a / p a ≤ p' b / p b := by
    intro a b
    rw [← Real.log_div (q' a).ne' (q a).ne', ← Real.log_div (q' b).ne' (q b).ne']
    exact Real.log_le_log_iff (div_pos (q' a) (q a)) (div_pos (q' b) (q b))
  have htop : ∀ k, p' k / p k ≤ p' i / p i := fun k => (conv k i).mp (hch.top k)
  have hbot : ∀ k, p' j / p j ≤ p' k / p k := fun k => (conv j k).mp (hch.bottom k)
  have hst : p' j / p j < p' i / p i := by
    rw [← not_le, ← conv i j, not_le]
    exact hch.strict
  have rat : ∀ a b, p' a / p a ≤ p' b / p b → p b / p a ≤ p' b / p' a := by
    intro a b h
    rw [div_le_div_iff₀ (q a) (q b)] at h
    rw [div_le_div_iff₀ (q a) (q' a)]
    linarith
  have rat' : ∀ a b, p' a / p a < p' b / p b → p b / p a < p' b / p' a := by
    intro a b h
    rw [div_lt_div_iff₀ (q a) (q b)] at h
    rw [div_lt_div_iff₀ (q a) (q' a)]
    linarith
  refine ⟨?_, ?_, fun k => rat k i (htop k), fun k => rat j k (hbot k), rat' j i hst⟩
  · by_contra hle
    have h1 : p' i / p i ≤ 1 := (div_le_one (q i)).mpr (not_lt.mp hle)
    have hsum : ∑ k, p' k < ∑ k, p k := Finset.sum_lt_sum (fun k _ => (div_le_one (q k)).mp ((htop k).trans h1))
      ⟨j, Finset.mem_univ j, (div_lt_one (q j)).mp (hst.trans_le h1)⟩
    rw [hp.1.sum, hp'.1.sum] at hsum
    exact lt_irrefl _ hsum
  · by_contra hle
    have h1 : 1 ≤ p' j / p j := (one_le_div (q j)).mpr (not_lt.mp hle)
    have hsum : ∑ k, p k < ∑ k, p' k := Finset.sum_lt_sum (fun k _ => (one_le_div (q k)).mp (h1.trans (hbot k)))
      ⟨i, Finset.mem_univ i, (one_lt_div (q i)).mp (h1.trans_lt hst)⟩
    rw [hp.1.sum, hp'.1.sum] at hsum
    exact lt_irrefl _ hsum

/-- **C166, the passes of the Bradley-Terry model, partial.**  The passes with and without the additional wins converge, and from some pass on the strength of `i` is
larger and that of `j` smaller with them.

Missing: the pass at which the model stops, which can be far from the limit (`C99_refuted_accuracy`). -/
theorem C166_passes_partial (hM : 2 ≤ M) (hA : ∀ i j, 0 ≤ A i j) (hf : Ford A) {i j : Fin M} (hij : i ≠ j) {w : ℝ} (hw : 0 < w) :
    ∃ x x' : ℕ → Fin M → ℝ, (∀ n, (Bt.iter (mat A))^[n] (Bt.start M) = vec (x n)) ∧
      (∀ n, (Bt.iter (mat (withWins A i j w)))^[n] (Bt.start M) = vec (x' n)) ∧ ∀ᶠ n in atTop, x n i < x' n i ∧ x' n j < x n j := by
  obtain ⟨p, x, h1, h2, h3⟩ := C99_converges hA hf hM
  obtain ⟨p', x', h1', h2', h3'⟩ := C99_converges (withWins_nonneg hA i j hw) (withWins_ford hf i j hw) hM
  obtain ⟨k1, k2, -⟩ := C166_estimate hM hA hf hij hw h1 h1'
  exact ⟨x, x', h2, h2', ((h3 i).eventually_lt (h3' i) k1).and ((h3' j).eventually_lt (h3 j) k2)⟩

/-- **C166, Thurstone scores, partial.**  If the search ends in scores where the partial derivatives vanish, no two of them more than four standard deviations
apart, with and without additional wins of `i` over `j`, then the model reports them, and with the wins `i` loses ground to nobody, nobody loses ground to `j`, and the lead of
`i` over `j` is larger.

Missing: scores that are further apart, where there can be several such points or none (`C95_refuted_exists`, `C95_refuted_convex`). -/
theorem C166_thurstone_partial (hM : M ≠ 0) (hA : ∀ i j, 0 ≤ A i j) (hc : Connected A) {i j : Fin M} (hij : i ≠ j) {w : ℝ} (hw : 0 < w) {v v' : Fin M → ℝ}
    (minimize minimize') {pinv} {simplified : Flag} {r r' : Bt.ThResult ℝ M}
    (hmin : (minimize M (Bt.nllf (lift normalCdf) (mat A)) (fun _ => 0)).2 = vec v)
    (hmin' : (minimize' M (Bt.nllf (lift normalCdf) (mat (withWins A i j w))) (fun _ => 0)).2 = vec v')
    (hr : Bt.thResolve (lift normalCdf) (lift normalPdf) minimize pinv simplified (mat A) = .ok r)
    (hr' : Bt.thResolve (lift normalCdf) (lift normalPdf) minimize' pinv simplified (mat (withWins A i j w)) = .ok r')
    (hs : Stationary (nll normalCdf (thEps M) A) v) (hs' : Stationary (nll normalCdf (thEps M) (withWins A i j w)) v') (hv : WithinFour v) (hv' : WithinFour v') :
    r.v = vec v ∧ r'.v = vec v' ∧ (∀ k, v i - v k ≤ v' i - v' k) ∧ (∀ k, v k - v j ≤ v' k - v' j) ∧ v i - v j < v' i - v' j := by
  have hc' : Connected (withWins A i j w) := by
    intro a b
    refine Relation.ReflTransGen.mono (fun k l hkl => ?_) a b (hc a b)
    unfold games withWins at *
    split_ifs <;> linarith
  have he := thEps_pos hM
  have grad : ∀ (B : Fin M → Fin M → ℝ) (u : Fin M → ℝ), Stationary (nll normalCdf (thEps M) B) u → ∀ k, pull (logSlope (thEps M)) B u k = 0 := by
    intro B u hu k
    have h1 : thGrad (thEps M) B u k = 0 := (nll_partial he.le B u k).unique (hu k)
    unfold thGrad at h1
    unfold pull
    rw [Finset.sum_sub_distrib]
    linarith
  have four : ∀ u : Fin M → ℝ, WithinFour u → ∀ k l, u k - u l ∈ Set.Ici (-4 : ℝ) := by
    intro u hu k l
    have := hu l k
    exact Set.mem_Ici.mpr (by linarith)
  have hch : Change (logSlope (thEps M)) (Set.Ici (-4)) A i j w v v' :=
    { anti := fun x hx y _ hxy => logSlope_lt he.le (thEps_le M) hx hxy
      pos := fun x _ => logSlope_pos he.le x
      mem := four v hv
      mem' := four v' hv'
      nonneg := hA
      conn := hc
      ne := hij
      wpos := hw
      eq := grad A v hs
      eq' := grad _ v' hs' }
  refine ⟨(C95_unique_partial hM hA hc minimize hmin hr hs hv).1, (C95_unique_partial hM (withWins_nonneg hA i j hw) hc' minimize' hmin' hr' hs' hv').1, fun k => ?_,
    fun k => ?_, ?_⟩
  · linarith [hch.top k]
  · linarith [hch.bottom k]
  · linarith [hch.strict]

/-! ## examples -/

/-- four videos with a table that has an estimate -/
example : ∃ p p' : Fin 4 → ℝ, IsMle slow p ∧ IsMle (withWins slow 0 3 1) p' ∧ p 0 < p' 0 ∧ p' 3 < p 3 := by
  obtain ⟨p, x, h1, -⟩ := C99_converges slow_nonneg slow_ford (by norm_num)
  obtain ⟨p', x', h1', -⟩ := C99_converges (withWins_nonneg slow_nonneg 0 3 one_pos) (withWins_ford slow_ford 0 3 one_pos) (by norm_num)
  obtain ⟨k1, k2, -⟩ := C166_estimate (by norm_num) slow_nonneg slow_ford (by decide) one_pos h1 h1'
  exact ⟨p, p', h1, h1', k1, k2⟩

/-- the first of two videos won `c` times and the second once -/
noncomputable def cOne (c : ℝ) : Fin 2 → Fin 2 → ℝ := ![![0, c], ![1, 0]]

theorem cOne_scores {c : ℝ} (h1 : 1 < c) (h4 : c ≤ 4) : ∃ d, 0 < d ∧ d ≤ 4 ∧ Stationary (nll normalCdf (thEps 2) (cOne c)) ![d, 0] := by
  have he := thEps_pos (M := 2) (by norm_num)
  have he' := thEps_le 2
  have hcont : Continuous fun d : ℝ => normalCdf d - c * normalCdf (-d) - (c - 1) * thEps 2 := by
    have hc : Continuous normalCdf := continuous_iff_continuousAt.mpr fun x => (normalCdf_deriv x).continuousAt
    exact (hc.sub (continuous_const.mul (hc.comp continuous_neg))).sub continuous_const
  have h0 : normalCdf 0 - c * normalCdf (-0) - (c - 1) * thEps 2 < 0 := by
    rw [neg_zero, normalCdf_zero]
    nlinarith
  have h4' : 0 ≤ normalCdf 4 - c * normalCdf (-4) - (c - 1) * thEps 2 := by
    have e := normalCdf_neg 4
    have h5 := normalCdf_four
    have h6 := normalCdf_pos (-4)
    norm_num at he'
    nlinarith
  obtain ⟨d, hd, hz⟩ := intermediate_value_Icc (show (0 : ℝ) ≤ 4 by norm_num) hcont.continuousOn ⟨h0.le, h4'⟩
  dsimp only at hz
  refine ⟨d, lt_of_le_of_ne hd.1 ?_, hd.2, ?_⟩
  · rintro rfl
    linarith
  · have hg : ∀ k, thGrad (thEps 2) (cOne c) ![d, 0] k = 0 := by
      have key : c * logSlope (thEps 2) d = logSlope (thEps 2) (-d) := by
        unfold logSlope
        rw [normalPdf_neg]
        have p1 := cdf_eps_pos he.le d
        have p2 := cdf_eps_pos he.le (-d)
        have : normalCdf d + thEps 2 = c * (normalCdf (-d) + thEps 2) := by linarith
        rw [this]
        have : c ≠ 0 := by linarith
        field_simp
      intro k
      fin_cases k <;> simp [thGrad, cOne, Fin.sum_univ_two] <;> linarith
    intro k
    have := nll_partial he.le (cOne c) ![d, 0] k
    rwa [hg k] at this

/-- three to one and four to one -/
example : ∃ d d', Stationary (nll normalCdf (thEps 2) (cOne 3)) ![d, 0] ∧ Stationary (nll normalCdf (thEps 2) (withWins (cOne 3) 0 1 1)) ![d', 0] ∧ d < d' := by
  obtain ⟨d, p0, p4, hs⟩ := cOne_scores (c := 3) (by norm_num) (by norm_num)
  obtain ⟨d', p0', p4', hs'⟩ := cOne_scores (c := 4) (by norm_num) (by norm_num)
  have hw : withWins (cOne 3) 0 1 1 = cOne 4 := by
    funext k l
    fin_cases k <;> fin_cases l <;> simp [withWins, cOne] <;> norm_num
  rw [hw]
  refine ⟨d, d', hs, hs', ?_⟩
  have hA : ∀ i j, 0 ≤ cOne 3 i j := by
    intro i j
    fin_cases i <;> fin_cases j <;> simp [cOne]
  have hc : Connected (cOne 3) := by
    intro i j
    by_cases h : i = j
    · exact h ▸ .refl
    · refine .single ?_
      fin_cases i <;> fin_cases j <;> simp [games, cOne] at h ⊢ <;> norm_num
  have w4 : ∀ x : ℝ, 0 < x → x ≤ 4 → WithinFour ![x, 0] := by
    intro x h0 h4 i j
    fin_cases i <;> fin_cases j <;> simp <;> linarith
  have ends : ∀ (x : ℝ) (B : Fin 2 → Fin 2 → ℝ), ∃ r, Bt.thResolve (lift normalCdf) (lift normalPdf)
      (fun k _ _ => if h : k = 2 then (true, fun i => vec ![x, 0] (i.cast h)) else (false, fun _ => .nan)) (fun _ m => .ok m) none (mat B) = .ok r := by
    intro x B
    unfold Bt.thResolve
    simp
  obtain ⟨r, hr⟩ := ends d (cOne 3)
  obtain ⟨r', hr'⟩ := ends d' (withWins (cOne 3) 0 1 1)
  have := (C166_thurstone_partial (by norm_num) hA hc (i := 0) (j := 1) (by decide) one_pos (v := ![d, 0]) (v' := ![d', 0]) _ _ rfl rfl hr hr' hs
    (by rw [hw]; exact hs') (w4 d p0 p4) (w4 d' p0' p4')).2.2.2.2
  simpa using this

end Sureal.Props
