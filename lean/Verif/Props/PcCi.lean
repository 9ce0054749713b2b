import Verif.Spec.PcCi
import Verif.Lemmas.PcCi
import Verif.Props.Thurstone
import Verif.Props.BtNr
/-!
# Property C92: standard deviations of scores estimated from paired comparisons
-/
set_option linter.unusedSectionVars false
namespace Sureal.Props
open Spec.BT Spec.Thurstone BtMath
variable {M : ℕ} {A : Fin M → Fin M → ℝ} {v : Fin M → ℝ}

theorem lambdaT_fl (h : NormalLike Φ φ) (L : Arr2 (Fl ℝ) M M) (hL : ∀ i j, L i j = .fin ((A i j + A j i) * curvature Φ φ (v i - v j))) :
    Bt.bordered (Bt.lambdaT L) =
      mat (PcCi.border (PcCi.lap fun i j => (A i j + A j i) * -curvature Φ φ (v i - v j))) := by
  have hl : ∀ i j, Bt.lambdaT L i j = .fin (-PcCi.lap (fun i j => (A i j + A j i) * -curvature Φ φ (v i - v j)) i j) := by
    intro i j
    unfold Bt.lambdaT PcCi.lap
    rw [hL, Fl.fin_neg]
    have hs : Np.sum (rowL L i) = .fin (∑ k, (A i k + A k i) * curvature Φ φ (v i - v k)) := by
      have : rowL L i = List.ofFn fun k => Fl.fin ((A i k + A k i) * curvature Φ φ (v i - v k)) := by
        unfold rowL
        congr 1
        funext k
        exact hL i k
      rw [this]
      exact Bt.sum_vec _
    split_ifs with hij
    · rw [hs, Fl.fin_add]
      congr 1
      simp only [mul_neg, Finset.sum_neg_distrib]
      ring
    · rw [Fl.zero_def, Fl.fin_add]
      congr 1
      ring
  funext i j
  unfold Bt.bordered mat PcCi.border
  split_ifs
  · rw [hl, Fl.fin_neg, neg_neg]
  · rfl
  · rfl
  · rfl

/-- **C92, THURSTONE_MLE.** If all videos are linked by comparisons and the search for the scores `v` succeeds, then
the model reports `v`, and the standard deviations are positive numbers, the roots of the diagonal of the reported covariance; the
rows and the columns of the covariance sum to 0, and it inverts the information matrix: multiplied by the information about any
scores it gives these scores minus their mean. -/
theorem C92_thurstone (hM : 2 ≤ M) (hA : ∀ i j, 0 ≤ A i j) (hc : Connected A) {pinv} (hp : InverseWhereExists pinv)
    (simplified : Flag) (hs : simplified ≠ some none) (minimize)
    (hmin : minimize M (Bt.nllf (lift normalCdf) (mat A)) (fun _ => 0) = (true, vec v)) :
    ∃ (std : Fin M → ℝ) (cov : Fin M → Fin M → ℝ),
      Bt.thResolve (lift normalCdf) (lift normalPdf) minimize pinv simplified (mat A) = .ok ⟨vec v, vec std, mat cov⟩ ∧
      (∀ i, 0 < std i ∧ std i ^ 2 = cov i i) ∧ (∀ i, ∑ j, cov i j = 0) ∧ (∀ j, ∑ i, cov i j = 0) ∧
      ∀ (x : Fin M → ℝ) i, ∑ j, cov i j * infoMul A v x j = x i - (∑ j, x j) / M := by
  set w : Fin M → Fin M → ℝ := fun i j => (A i j + A j i) * -curvature normalCdf normalPdf (v i - v j) with hwdef
  have hcur : ∀ x, 0 < -curvature normalCdf normalPdf x := fun x => neg_pos.mpr (curvature_normal_neg x)
  have hw : ∀ i j, 0 ≤ w i j := fun i j => mul_nonneg (add_nonneg (hA i j) (hA j i)) (hcur _).le
  have hcw : ∀ i j, Relation.ReflTransGen (fun i j => 0 < w i j) i j := by
    intro i j
    exact Relation.ReflTransGen.mono (fun a b hab => mul_pos hab (hcur _)) _ _ (hc i j)
  obtain ⟨G, hG1, hG2⟩ := PcCi.border_inverse (by omega) hw hcw
  have hpos := fun i => PcCi.inv_pos hM hw hcw hG1 i
  refine ⟨fun i => Real.sqrt (G i.castSucc i.castSucc), fun i j => G i.castSucc j.castSucc, ?_, ?_, ?_, ?_, ?_⟩
  · unfold Bt.thResolve
    rw [if_neg hs]
    dsimp only
    rw [hmin]
    dsimp only
    rw [if_pos rfl]
    have hb : Bt.bordered (Bt.lambdaT (if simplified = some (some false) then
          Bt.curvFull (lift normalCdf) (lift normalPdf) (mat A) (vec v)
        else Bt.curvSimplified (lift normalCdf) (lift normalPdf) (mat A) (vec v))) = mat (PcCi.border (PcCi.lap w)) := by
      refine lambdaT_fl normalLike_normal _ fun i j => ?_
      split_ifs
      · rw [C77_variants_agree normalLike_normal, curvSimplified_eq normalLike_normal]
      · rw [curvSimplified_eq normalLike_normal]
    rw [hb]
    unfold mat
    rw [hp (M + 1) _ G hG1]
    dsimp only
    congr 2
    funext i
    rw [Fl.sqrt_fin (hpos i).le]
    rfl
  · intro i
    exact ⟨Real.sqrt_pos.mpr (hpos i), Real.sq_sqrt (hpos i).le⟩
  · exact fun i => PcCi.inv_row hG2 i
  · exact fun j => PcCi.inv_col hG1 j
  · intro x i
    exact PcCi.inv_undo hG2 x i

/-- **C92, BT_MLE.** The variances of the probabilities and of their logarithms fit together, and the covariance of the
probabilities, which sum to one, sums to 0 by rows and columns.

Missing: the standard deviations need not be numbers, see `C92_refuted_bt`, because the information matrix is wrong
(`C58_refuted`). -/
theorem C92_bt_partial (h : Table A) (hM : M ≠ 0) {pinv} (hp : InverseWhereExists pinv) {display} (hd : display ≠ some none)
    {r : Bt.MleResult ℝ M} (hr : Bt.Resolve pinv display (mat A) (.ok r)) {B G : Fin (M + 1) → Fin (M + 1) → ℝ}
    (hB : Bt.bordered (Bt.lambda (mat A) r.p) = mat B)
    (hG1 : ∀ i j, ∑ l, B i l * G l j = if i = j then 1 else 0) (hG2 : ∀ i j, ∑ l, G i l * B l j = if i = j then 1 else 0) :
    ∃ (p : Fin M → ℝ) (covP covV : Fin M → Fin M → ℝ), r.p = vec p ∧ PosProb p ∧ r.covP = mat covP ∧ r.covV = mat covV ∧
      (∀ i, ∑ j, covP i j = 0) ∧ (∀ j, ∑ i, covP i j = 0) ∧ (∀ i j, covV i j * (p i * p j) = covP i j) ∧
      ∀ i, (0 ≤ covP i i → r.stdP i = .fin (Real.sqrt (covP i i)) ∧ r.stdV i = .fin (Real.sqrt (covV i i))) ∧
        (covP i i < 0 → r.stdP i = .nan ∧ r.stdV i = .nan) := by
  obtain ⟨p, hp0, hp1, hrp, -⟩ := C55_result_partial h hM hd hr
  generalize hr' : (Except.ok r : Py (Bt.MleResult ℝ M)) = r' at hr
  cases hr with
  | badFlag hb => exact absurd hb hd
  | empty _ h0 => exact absurd h0 hM
  | fail _ _ _ => cases hr'
  | done _ _ hl =>
    rename_i q
    unfold Bt.finish at hr'
    split at hr'
    · cases hr'
    · rename_i c hcq
      have hr := Except.ok.inj hr'
      have hq : q = vec p := by rw [← hrp, hr]
      subst hq
      rw [hrp] at hB
      rw [hB] at hcq
      unfold mat at hcq
      rw [hp (M + 1) B G hG1] at hcq
      have hcG := Except.ok.inj hcq
      subst hcG
      have hBl : B (Fin.last M) (Fin.last M) = 0 ∧ (∀ j : Fin M, B (Fin.last M) j.castSucc = 1) ∧ ∀ j : Fin M, B j.castSucc (Fin.last M) = 1 := by
        refine ⟨?_, fun j => ?_, fun j => ?_⟩
        · have := congrFun (congrFun hB (Fin.last M)) (Fin.last M)
          simp only [Bt.bordered, mat, Fin.val_last, lt_irrefl, dite_false, if_false] at this
          rw [Fl.zero_def, Fl.fin_inj] at this
          exact this.symm
        · have := congrFun (congrFun hB (Fin.last M)) j.castSucc
          simp only [Bt.bordered, mat, Fin.val_last, lt_irrefl, dite_false, Fin.val_castSucc, j.isLt, if_true] at this
          rw [Fl.one_def, Fl.fin_inj] at this
          exact this.symm
        · have := congrFun (congrFun hB j.castSucc) (Fin.last M)
          simp only [Bt.bordered, mat, Fin.val_last, lt_irrefl, dite_false, Fin.val_castSucc, j.isLt, dite_true] at this
          rw [Fl.one_def, Fl.fin_inj] at this
          exact this.symm
      have hne : ∀ i j, p i * p j ≠ 0 := fun i j => (mul_pos (hp0 i) (hp0 j)).ne'
      refine ⟨p, fun i j => G i.castSucc j.castSucc, fun i j => G i.castSucc j.castSucc / (p i * p j), hrp, ⟨hp0, hp1⟩, ?_, ?_,
        ?_, ?_, ?_, ?_⟩
      · rw [hr]; rfl
      · rw [hr]
        funext i j
        simp only [vec, mat, Fl.fin_mul, Fl.fin_div (hne i j)]
      · intro i
        have := hG2 i.castSucc (Fin.last M)
        rw [Fin.sum_univ_castSucc, if_neg (Fin.castSucc_lt_last i).ne] at this
        simpa only [hBl.1, hBl.2.2, mul_one, mul_zero, add_zero] using this
      · intro j
        have := hG1 (Fin.last M) j.castSucc
        rw [Fin.sum_univ_castSucc, if_neg (Fin.castSucc_lt_last j).ne'] at this
        simpa only [hBl.1, hBl.2.1, one_mul, zero_mul, add_zero] using this
      · intro i j
        exact div_mul_cancel₀ _ (hne i j)
      · intro i
        rw [hr]
        refine ⟨fun h0 => ?_, fun h0 => ?_⟩
        · simp only [vec]
          rw [Fl.sqrt_fin h0]
          refine ⟨rfl, ?_⟩
          rw [Real.sqrt_div' _ (mul_pos (hp0 i) (hp0 i)).le, Real.sqrt_mul_self (hp0 i).le]
          exact Fl.fin_div (hp0 i).ne'
        · have : (Fl.fin (G i.castSucc i.castSucc) : Fl ℝ).sqrt = .nan := by simp [Fl.sqrt, h0]
          simp only [vec, this]
          exact ⟨trivial, Fl.nan_div _⟩

/-- two videos compared 64 times, both compared twice with a third; every video wins half of its comparisons -/
def rarely : Fin 3 → Fin 3 → ℝ := ![![0, 32, 1], ![32, 0, 1], ![1, 1, 0]]

theorem rarely_table : Table rarely := by
  constructor
  · intro i j
    fin_cases i <;> fin_cases j <;> simp [rarely]
  · intro i
    fin_cases i <;> simp [rarely, wins, Fin.sum_univ_three] <;> norm_num

theorem rarely_connected : Connected rarely := by
  intro i j
  by_cases hij : i = j
  · rw [hij]
  · refine Relation.ReflTransGen.single ?_
    fin_cases i <;> fin_cases j <;> first | (exact absurd rfl hij) | (simp [games, rarely]; try norm_num)

/-- the matrix that is inverted -/
noncomputable def rarelyB : Fin 4 → Fin 4 → ℝ :=
  ![![297 / 2, -192, -6, 1], ![-192, 297 / 2, -6, 1], ![-6, -6, 9, 1], ![1, 1, 1, 0]]

/-- its inverse -/
noncomputable def rarelyG : Fin 4 → Fin 4 → ℝ :=
  ![![-226 / 681, -76 / 227, 2 / 3, -10], ![-76 / 227, -226 / 681, 2 / 3, -10], ![2 / 3, 2 / 3, -4 / 3, 21], ![-10, -10, 21, -309]]

theorem rarely_inverse : (∀ i j, ∑ l, rarelyB i l * rarelyG l j = if i = j then 1 else 0) ∧
    ∀ i j, ∑ l, rarelyG i l * rarelyB l j = if i = j then 1 else 0 := by
  constructor <;>
  · intro i j
    fin_cases i <;> fin_cases j <;> simp [rarelyB, rarelyG, Fin.sum_univ_four] <;> norm_num

theorem rarely_bordered : Bt.bordered (Bt.lambda (mat rarely) (vec fun _ => 1 / 3)) = mat rarelyB := by
  have hp : ∀ i : Fin 3, (0 : ℝ) < (fun _ => 1 / 3 : Fin 3 → ℝ) i := fun _ => by norm_num
  have hA : ∀ i, rarely i i = 0 := by
    intro i
    fin_cases i <;> simp [rarely]
  have hoff : ∀ i j : Fin 3, i ≠ j → Bt.lambda (mat rarely) (vec fun _ => 1 / 3) i j = .fin (3 * games rarely i j) := by
    intro i j hij
    rw [lambda_off hij hp]
    congr 1
    ring
  have hdiag : ∀ i : Fin 3, Bt.lambda (mat rarely) (vec fun _ => 1 / 3) i i =
      .fin (-wins rarely i / (1 / 3) ^ 2 + ∑ l, games rarely i l / (1 / 3 + 1 / 3) ^ 2) := by
    intro i
    obtain ⟨h, hh, he⟩ := C58_diagonal_partial hA hp i
    rw [he]
    congr 1
    exact hessian_unique hp hh (hessian_diag hA i hp)
  have hl : ∀ i j : Fin 3, Bt.lambda (mat rarely) (vec fun _ => 1 / 3) i j = .fin (-rarelyB i.castSucc j.castSucc) := by
    intro i j
    by_cases hij : i = j
    · subst hij
      rw [hdiag]
      congr 1
      fin_cases i <;> simp [rarely, rarelyB, wins, games, Fin.sum_univ_three] <;> norm_num
    · rw [hoff i j hij]
      congr 1
      fin_cases i <;> fin_cases j <;> first | (exact absurd rfl hij) | (simp [rarely, rarelyB, games]; try norm_num)
  funext i j
  unfold Bt.bordered
  refine Fin.lastCases ?_ (fun i => ?_) i <;> refine Fin.lastCases ?_ (fun j => ?_) j
  · simp [mat, rarelyB, Fin.last]; rfl
  · fin_cases j <;> (simp [mat, rarelyB, Fin.last]; rfl)
  · fin_cases i <;> (simp [mat, rarelyB, Fin.last]; rfl)
  · have hi : i.castSucc.val < 3 := i.isLt
    have hj : j.castSucc.val < 3 := j.isLt
    rw [dif_pos hi, dif_pos hj]
    have : Bt.lambda (mat rarely) (vec fun _ => 1 / 3) ⟨i.castSucc.val, hi⟩ ⟨j.castSucc.val, hj⟩ =
      .fin (-rarelyB i.castSucc j.castSucc) := hl i j
    rw [this, Fl.fin_neg, neg_neg]
    rfl

/-- **C92 is violated by BT_MLE.** Videos that are all equally good, linked by comparisons, each winning half of its comparisons:
all standard deviations are NaN. -/
theorem C92_refuted_bt {pinv} (hp : InverseWhereExists pinv) :
    ∃ r : Bt.MleResult ℝ 3, Bt.Resolve pinv none (mat rarely) (.ok r) ∧ r.p = vec (fun _ => 1 / 3) ∧
      ∀ i, r.stdP i = .nan ∧ r.stdV i = .nan := by
  have hpp : PosProb (fun _ : Fin 3 => (1 / 3 : ℝ)) := by
    have := Bt.start_posProb (M := 3) (by norm_num)
    norm_num at this
    exact this
  have hst : Bt.start 3 = vec (fun _ : Fin 3 => (1 / 3 : ℝ)) := by
    rw [Bt.start_vec (by norm_num)]
    norm_num
  have hfix : Bt.iter (mat rarely) (vec fun _ => 1 / 3) = vec fun _ => 1 / 3 := by
    rw [C57_fixed_iff rarely_table hpp]
    intro i
    fin_cases i <;> simp [rarely, Fin.sum_univ_three] <;> norm_num
  have hloop : Bt.Loop (mat rarely) (Bt.start 3) (.ok (vec fun _ => 1 / 3)) := by
    rw [hst]
    have := Bt.Loop.stop (al := mat rarely) (p := vec fun _ => 1 / 3) (c := .fin 0) (by
      rw [hfix, Bt.change_fl]
      simp) (by
      rw [Bt.thr_fl]
      simp [Fl.lt])
    rw [hfix] at this
    exact this
  have hres := Bt.Resolve.done (pinv := pinv) (display := none) (by simp) (by norm_num) hloop
  obtain ⟨r, hr⟩ : ∃ r, Bt.finish pinv (mat rarely) (vec fun _ => 1 / 3) = .ok r := by
    unfold Bt.finish
    rw [rarely_bordered]
    unfold mat
    rw [hp 4 rarelyB rarelyG rarely_inverse.1]
    exact ⟨_, rfl⟩
  rw [hr] at hres
  have hrp : r.p = vec fun _ => 1 / 3 := by
    unfold Bt.finish at hr
    split at hr
    · cases hr
    · cases hr; rfl
  refine ⟨r, hres, hrp, fun i => ?_⟩
  obtain ⟨p, covP, covV, -, -, h1, -, -, -, -, h2⟩ := C92_bt_partial rarely_table (by norm_num) hp (by simp) hres
    (by rw [hrp]; exact rarely_bordered) rarely_inverse.1 rarely_inverse.2
  refine (h2 i).2 ?_
  have hG : covP i i = rarelyG i.castSucc i.castSucc := by
    have hc : r.covP = mat fun i j => rarelyG i.castSucc j.castSucc := by
      unfold Bt.finish at hr
      rw [rarely_bordered] at hr
      unfold mat at hr
      rw [hp 4 rarelyB rarelyG rarely_inverse.1] at hr
      cases hr
      rfl
    rw [hc] at h1
    exact (Fl.fin_inj.mp (congrFun (congrFun h1 i) i)).symm
  rw [hG]
  fin_cases i <;> simp [rarelyG] <;> norm_num

/-- the hypotheses of `C92_thurstone` and of `C92_refuted_bt` on comparisons are met -/
example : Table rarely ∧ Connected rarely ∧ (∀ i j, 0 ≤ rarely i j) := ⟨rarely_table, rarely_connected, rarely_table.nonneg⟩

end Sureal.Props
