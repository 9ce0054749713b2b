import Verif.Lemmas.AddedTie
import Verif.Props.AddedWin
/-!
# C167: what an additional tie does to the scores from paired comparisons
-/
set_option linter.unusedSectionVars false
namespace Sureal.Props
open Spec Spec.BT Spec.Thurstone BtMath AddedWin Filter Topology
variable {M : ℕ} {A : Fin M → Fin M → ℝ}

theorem withTies_nonneg (hA : ∀ i j, 0 ≤ A i j) (i j : Fin M) {t : ℝ} (ht : 0 < t) (k l : Fin M) : 0 ≤ withTies A i j t k l := by
  unfold withTies
  have := hA k l
  split_ifs <;> linarith

theorem withTies_ford (hf : Ford A) (i j : Fin M) {t : ℝ} (ht : 0 < t) : Ford (withTies A i j t) := by
  intro a b
  refine Relation.ReflTransGen.mono (fun k l hkl => ?_) a b (hf a b)
  unfold withTies
  split_ifs <;> linarith

/-- **C167, Bradley-Terry estimates.**  If `i` is estimated stronger than `j`, then with additional ties of the two `i` is still estimated stronger, but its strength and
its lead over `j` are smaller, that of `j` is larger; `i` gains ground on nobody, and nobody gains ground on `j`.  Ties of two videos of equal estimated
strength change no strength. -/
theorem C167_estimate (hM : 2 ≤ M) (hA : ∀ i j, 0 ≤ A i j) (hf : Ford A) {i j : Fin M} (hij : i ≠ j) {t : ℝ} (ht : 0 < t) {p p' : Fin M → ℝ}
    (hp : IsMle A p) (hp' : IsMle (withTies A i j t) p') :
    (p j < p i → p' j < p' i ∧ p' i < p i ∧ p j < p' j ∧ p' i / p' j < p i / p j ∧ (∀ k, p' i / p' k ≤ p i / p k) ∧ (∀ k, p' k / p' j ≤ p k / p j)) ∧
    (p i = p j → p' = p) := by
  have hch : TieChange loseChance Set.univ A i j t (fun k => Real.log (p k)) (fun k => Real.log (p' k)) :=
    { anti := loseChance_anti
      pos := fun x _ => by unfold loseChance; positivity
      mem := fun _ _ => Set.mem_univ _
      mem' := fun _ _ => Set.mem_univ _
      nonneg := hA
      conn := ford_connected hA hf
      ne := hij
      tpos := ht
      eq := pull_likEq hp.1.pos (mle_likEq hM hA hf hp)
      eq' := pull_likEq hp'.1.pos (mle_likEq hM (withTies_nonneg hA i j ht) (withTies_ford hf i j ht) hp') }
  have q := hp.1.pos
  have q' := hp'.1.pos
  -- a comparison of changes of logarithms is one of ratios
  have conv : ∀ a b, Real.log (p' a) - Real.log (p a) ≤ Real.log (p' b) - Real.log (p b) ↔ p' a / p a ≤ p' b / p b := by
    intro a b
    rw [← Real.log_div (q' a).ne' (q a).ne', ← Real.log_div (q' b).ne' (q b).ne']
    exact Real.log_le_log_iff (div_pos (q' a) (q a)) (div_pos (q' b) (q b))
  have rat : ∀ a b, p' a / p a ≤ p' b / p b → p' a / p' b ≤ p a / p b := by
    intro a b h
    rw [div_le_div_iff₀ (q a) (q b)] at h
    rw [div_le_div_iff₀ (q' b) (q b)]
    linarith
  have rat' : ∀ a b, p' a / p a < p' b / p b → p' a / p' b < p a / p b := by
    intro a b h
    rw [div_lt_div_iff₀ (q a) (q b)] at h
    rw [div_lt_div_iff₀ (q' b) (q b)]
    linarith
  constructor
  · intro hlt
    obtain ⟨h1, h2, h3, h4⟩ := hch.ahead (Real.log_lt_log (q j) hlt)
    have hbot : ∀ k, p' i / p i ≤ p' k / p k := fun k => (conv i k).mp (h3 k)
    have htop : ∀ k, p' k / p k ≤ p' j / p j := fun k => (conv k j).mp (h4 k)
    have hst : p' i / p i < p' j / p j := by
      rw [← not_le, ← conv j i, not_le]
      exact h2
    refine ⟨(Real.log_lt_log_iff (q' j) (q' i)).mp h1, ?_, ?_, rat' i j hst, fun k => rat i k (hbot k), fun k => rat k j (htop k)⟩
    · by_contra hle
      have h5 : 1 ≤ p' i / p i := (one_le_div (q i)).mpr (not_lt.mp hle)
      have hsum : ∑ k, p k < ∑ k, p' k := Finset.sum_lt_sum (fun k _ => (one_le_div (q k)).mp (h5.trans (hbot k)))
        ⟨j, Finset.mem_univ j, (one_lt_div (q j)).mp (h5.trans_lt hst)⟩
      rw [hp.1.sum, hp'.1.sum] at hsum
      exact lt_irrefl _ hsum
    · by_contra hle
      have h5 : p' j / p j ≤ 1 := (div_le_one (q j)).mpr (not_lt.mp hle)
      have hsum : ∑ k, p' k < ∑ k, p k := Finset.sum_lt_sum (fun k _ => (div_le_one (q k)).mp ((htop k).trans h5))
        ⟨i, Finset.mem_univ i, (div_lt_one (q i)).mp (hst.trans_le h5)⟩
      rw [hp.1.sum, hp'.1.sum] at hsum
      exact lt_irrefl _ hsum
  · intro he
    have hall := hch.equal (show Real.log (p i) = Real.log (p j) by rw [he])
    have hk : ∀ k, p' k / p k = p' i / p i := fun k => le_antisymm ((conv k i).mp (hall k i).le) ((conv i k).mp (hall i k).le)
    have hmul : ∀ k, p' k = p' i / p i * p k := fun k => by rw [← hk k, div_mul_cancel₀ _ (q k).ne']
    have hone : p' i / p i = 1 := by
      have := hp'.1.sum
      rw [Finset.sum_congr rfl fun k _ => hmul k, ← Finset.mul_sum, hp.1.sum, mul_one] at this
      exact this
    funext k
    rw [hmul k, hone, one_mul]

/-- **C167, the passes of the Bradley-Terry model, partial.**  The passes with and without the additional ties converge, and if `i` is estimated stronger than `j`, then
from some pass on the strengths of `i` and `j` are closer together with the ties.

Missing: the pass at which the model stops, which can be far from the limit (`C99_refuted_accuracy`). -/
theorem C167_passes_partial (hM : 2 ≤ M) (hA : ∀ i j, 0 ≤ A i j) (hf : Ford A) {i j : Fin M} (hij : i ≠ j) {t : ℝ} (ht : 0 < t) {p : Fin M → ℝ} (hp : IsMle A p)
    (hlt : p j < p i) :
    ∃ x x' : ℕ → Fin M → ℝ, (∀ n, (Bt.iter (mat A))^[n] (Bt.start M) = vec (x n)) ∧
      (∀ n, (Bt.iter (mat (withTies A i j t)))^[n] (Bt.start M) = vec (x' n)) ∧ ∀ᶠ n in atTop, x n j < x' n j ∧ x' n j < x' n i ∧ x' n i < x n i := by
  obtain ⟨p1, x, h1, h2, h3⟩ := C99_converges hA hf hM
  obtain ⟨p', x', h1', h2', h3'⟩ := C99_converges (withTies_nonneg hA i j ht) (withTies_ford hf i j ht) hM
  have : p1 = p := likEq_unique hA (ford_connected hA hf) (mle_likEq hM hA hf hp) hp.1 h1.1 (h1.2 _ hp.1.pos)
  subst this
  obtain ⟨k1, k2, k3, -⟩ := (C167_estimate hM hA hf hij ht h1 h1').1 hlt
  exact ⟨x, x', h2, h2', ((h3 j).eventually_lt (h3' j) k3).and (((h3' j).eventually_lt (h3' i) k1).and ((h3' i).eventually_lt (h3 i) k2))⟩

/-- **C167, Thurstone scores, partial.**  If the search ends in scores where the partial derivatives vanish, no two of them more than four standard deviations
apart, with and without additional ties of `i` and `j`, then the model reports them.  If `i` was ahead of `j`, then with the ties it is still ahead but less so,
it gains ground on nobody, and nobody gains ground on `j`.  If the two were level, no difference of scores changes.

Missing: scores that are further apart, where there can be several such points or none (`C95_refuted_exists`, `C95_refuted_convex`). -/
theorem C167_thurstone_partial (hM : M ≠ 0) (hA : ∀ i j, 0 ≤ A i j) (hc : Connected A) {i j : Fin M} (hij : i ≠ j) {t : ℝ} (ht : 0 < t) {v v' : Fin M → ℝ}
    (minimize minimize') {pinv} {simplified : Flag} {r r' : Bt.ThResult ℝ M}
    (hmin : (minimize M (Bt.nllf (lift normalCdf) (mat A)) (fun _ => 0)).2 = vec v)
    (hmin' : (minimize' M (Bt.nllf (lift normalCdf) (mat (withTies A i j t))) (fun _ => 0)).2 = vec v')
    (hr : Bt.thResolve (lift normalCdf) (lift normalPdf) minimize pinv simplified (mat A) = .ok r)
    (hr' : Bt.thResolve (lift normalCdf) (lift normalPdf) minimize' pinv simplified (mat (withTies A i j t)) = .ok r')
    (hs : Stationary (nll normalCdf (thEps M) A) v) (hs' : Stationary (nll normalCdf (thEps M) (withTies A i j t)) v') (hv : WithinFour v) (hv' : WithinFour v') :
    r.v = vec v ∧ r'.v = vec v' ∧
    (v j < v i → v' j < v' i ∧ v' i - v' j < v i - v j ∧ (∀ k, v' i - v' k ≤ v i - v k) ∧ ∀ k, v' k - v' j ≤ v k - v j) ∧
    (v i = v j → ∀ k l, v' k - v' l = v k - v l) := by
  have hc' : Connected (withTies A i j t) := by
    intro a b
    refine Relation.ReflTransGen.mono (fun k l hkl => ?_) a b (hc a b)
    unfold games withTies at *
    split_ifs <;> linarith
  have he := thEps_pos hM
  have grad : ∀ (B : Fin M → Fin M → ℝ) (u : Fin M → ℝ), Stationary (nll normalCdf (thEps M) B) u → ∀ k, pull (logSlope (thEps M)) B u k = 0 := by
    intro B u hu k
    have h1 : thGrad (thEps M) B u k = 0 := (nll_partial he.le B u k).unique (hu k)
    unfold thGrad at h1
    unfold pull
    rw [Finset.sum_sub_distrib]
    linarith
  have four : ∀ u : Fin M → ℝ, WithinFour u → ∀ k l, u k - u l ∈ Set.Ici (-4 : ℝ) := by
    intro u hu k l
    have := hu l k
    exact Set.mem_Ici.mpr (by linarith)
  have hch : TieChange (logSlope (thEps M)) (Set.Ici (-4)) A i j t v v' :=
    { anti := fun x hx y _ hxy => logSlope_lt he.le (thEps_le M) hx hxy
      pos := fun x _ => logSlope_pos he.le x
      mem := four v hv
      mem' := four v' hv'
      nonneg := hA
      conn := hc
      ne := hij
      tpos := ht
      eq := grad A v hs
      eq' := grad _ v' hs' }
  refine ⟨(C95_unique_partial hM hA hc minimize hmin hr hs hv).1, (C95_unique_partial hM (withTies_nonneg hA i j ht) hc' minimize' hmin' hr' hs' hv').1,
    fun hlt => ?_, fun heq k l => ?_⟩
  · obtain ⟨h1, h2, h3, h4⟩ := hch.ahead hlt
    exact ⟨h1, by linarith, fun k => by linarith [h3 k], fun k => by linarith [h4 k]⟩
  · linarith [hch.equal heq k l]

/-! ## examples -/

/-- four videos, of which the first two are three times as strong: ties of the second and the third, and ties of the first and the second -/
example : ∃ p' p'' : Fin 4 → ℝ, IsMle slow ![3 / 8, 3 / 8, 1 / 8, 1 / 8] ∧ IsMle (withTies slow 1 2 1) p' ∧ p' 1 < 3 / 8 ∧ 1 / 8 < p' 2 ∧ p' 2 < p' 1 ∧
    IsMle (withTies slow 0 1 1) p'' ∧ p'' = ![3 / 8, 3 / 8, 1 / 8, 1 / 8] := by
  obtain ⟨p', x', h1', -⟩ := C99_converges (withTies_nonneg slow_nonneg 1 2 one_pos) (withTies_ford slow_ford 1 2 one_pos) (by norm_num)
  obtain ⟨p'', x'', h1'', -⟩ := C99_converges (withTies_nonneg slow_nonneg 0 1 one_pos) (withTies_ford slow_ford 0 1 one_pos) (by norm_num)
  obtain ⟨k1, k2, k3, -⟩ := (C167_estimate (by norm_num) slow_nonneg slow_ford (by decide) one_pos slow_mle h1').1 (by simp; norm_num)
  have k4 := (C167_estimate (by norm_num) slow_nonneg slow_ford (by decide) one_pos slow_mle h1'').2 (by simp)
  exact ⟨p', p'', slow_mle, h1', by simpa using k2, by simpa using k3, k1, h1'', k4⟩

/-- three to one, and the same with two ties -/
example : ∃ d d', Stationary (nll normalCdf (thEps 2) (cOne 3)) ![d, 0] ∧ Stationary (nll normalCdf (thEps 2) (withTies (cOne 3) 0 1 2)) ![d', 0] ∧ 0 < d' ∧ d' < d := by
  obtain ⟨d, p0, p4, hs⟩ := cOne_scores (c := 3) (by norm_num) (by norm_num)
  obtain ⟨d', p0', p4', hs2⟩ := cOne_scores (c := 2) (by norm_num) (by norm_num)
  have he := thEps_pos (M := 2) (by norm_num)
  have hs' : Stationary (nll normalCdf (thEps 2) (withTies (cOne 3) 0 1 2)) ![d', 0] := by
    intro k
    have h1 : thGrad (thEps 2) (cOne 2) ![d', 0] k = 0 := (nll_partial he.le (cOne 2) ![d', 0] k).unique (hs2 k)
    have h2 := nll_partial he.le (withTies (cOne 3) 0 1 2) ![d', 0] k
    have h3 : thGrad (thEps 2) (withTies (cOne 3) 0 1 2) ![d', 0] k = 2 * thGrad (thEps 2) (cOne 2) ![d', 0] k := by
      fin_cases k <;> simp [thGrad, cOne, withTies, Fin.sum_univ_two] <;> ring
    rwa [h3, h1, mul_zero] at h2
  refine ⟨d, d', hs, hs', p0', ?_⟩
  have hA : ∀ i j, 0 ≤ cOne 3 i j := by
    intro i j
    fin_cases i <;> fin_cases j <;> simp [cOne]
  have hc : Connected (cOne 3) := by
    intro i j
    by_cases h : i = j
    · exact h ▸ .refl
    · refine .single ?_
      fin_cases i <;> fin_cases j <;> simp [games, cOne] at h ⊢ <;> norm_num
  have w4 : ∀ x : ℝ, 0 < x → x ≤ 4 → WithinFour ![x, 0] := by
    intro x h0 h4 i j
    fin_cases i <;> fin_cases j <;> simp <;> linarith
  have ends : ∀ (x : ℝ) (B : Fin 2 → Fin 2 → ℝ), ∃ r, Bt.thResolve (lift normalCdf) (lift normalPdf)
      (fun k _ _ => if h : k = 2 then (true, fun i => vec ![x, 0] (i.cast h)) else (false, fun _ => .nan)) (fun _ m => .ok m) none (mat B) = .ok r := by
    intro x B
    unfold Bt.thResolve
    simp
  obtain ⟨r, hr⟩ := ends d (cOne 3)
  obtain ⟨r', hr'⟩ := ends d' (withTies (cOne 3) 0 1 2)
  have := ((C167_thurstone_partial (by norm_num) hA hc (i := 0) (j := 1) (by decide) two_pos (v := ![d, 0]) (v' := ![d', 0]) _ _ rfl rfl hr hr' hs
    hs' (w4 d p0 p4) (w4 d' p0' p4')).2.2.1 (by simpa using p0)).2.1
  simpa using this

end Sureal.Props
