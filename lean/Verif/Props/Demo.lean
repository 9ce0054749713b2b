import Verif.Model.Demo
import Verif.Props.ApSym
/-!
# C33: the demo scripts of the ITU recommendations compute what the P.910 model computes
-/
set_option linter.unusedSectionVars false
namespace Sureal.Props
open Sureal Spec
variable {κ : Type}

section
variable {J I R : ℕ}

theorem bt500_body (x : Arr3 (Fl ℝ) J I R) (k : ℕ) (s : Arr1 (Fl ℝ) J) (b : Arr1 (Fl ℝ) I) :
    (Bt500Demo.body x s b).m = (Ap.step x k s b).s ∧ (Bt500Demo.body x s b).b = (Ap.step x k s b).b ∧
    (Bt500Demo.body x s b).sigI = (Ap.step x k s b).vi ∧ (Bt500Demo.body x s b).sigJ = (Ap.step x k s b).vj :=
  ⟨rfl, rfl, rfl, rfl⟩

theorem bt500_loop (x : Arr3 (Fl ℝ) J I R) (itr : ℕ) (s : Arr1 (Fl ℝ) J) (b : Arr1 (Fl ℝ) I) :
    (∃ e, Bt500Demo.loop x itr s b = .error e ∧ Ap.loop x itr s b = .error e) ∨
    (∃ t f, Bt500Demo.loop x itr s b = .ok t ∧ Ap.loop x itr s b = .ok f ∧
      t.m = f.s ∧ t.b = f.b ∧ t.sigI = f.vi ∧ t.sigJ = f.vj) := by
  induction hn : Ap.maxItr - itr using Nat.strong_induction_on generalizing itr s b with
  | _ n ih =>
    obtain ⟨h1, h2, h3, h4⟩ := bt500_body x itr s b
    rw [Ap.loop_unfold itr s b, Bt500Demo.loop]
    rw [h1]
    cases hno : Np.linalgNorm (List.ofFn fun j => s j - (Ap.step x itr s b).s j) with
    | error e => exact Or.inl ⟨e, rfl, rfl⟩
    | ok d =>
      dsimp only
      by_cases hd : d.lt Ap.deltaThr = true
      · rw [if_pos hd, if_pos (show d.lt (Fl.dec 1 100000000) = true from hd)]
        exact Or.inr ⟨_, _, rfl, rfl, h1, h2, h3, h4⟩
      · rw [if_neg hd, if_neg (show ¬ d.lt (Fl.dec 1 100000000) = true from hd)]
        by_cases hm : Ap.maxItr ≤ itr + 1
        · rw [if_pos (show Ap.maxItr ≤ (Ap.step x itr s b).itr from hm), if_pos (show itr + 1 ≥ 1000 from hm)]
          exact Or.inr ⟨_, _, rfl, rfl, h1, h2, h3, h4⟩
        · rw [if_neg (show ¬ Ap.maxItr ≤ (Ap.step x itr s b).itr from hm), if_neg (show ¬ itr + 1 ≥ 1000 from hm), h2]
          exact ih (Ap.maxItr - (itr + 1)) (by omega) (itr + 1) _ _ rfl

theorem one_row (a : Arr2 (Fl ℝ) J I) (j : Fin J) : rowL (stack1 fun j i (_ : Fin 1) => a j i) j = rowL a j := by
  rw [rowL_stack1]; simp [rowL, List.ofFn_succ]

theorem one_col (a : Arr2 (Fl ℝ) J I) (i : Fin I) : colL (stack0 fun j i (_ : Fin 1) => a j i) i = colL a i := by
  rw [colL_stack0]; simp [colL, List.ofFn_succ]

theorem p910_update (x : Arr2 (Fl ℝ) J I) (b w : Arr1 (Fl ℝ) I) :
    weighedNanmean1 (stack1 fun j i (_ : Fin 1) => x j i - b i) (tile w 1) = P910Demo.weighedNanmean (fun j i => x j i - b i) w := by
  funext j
  unfold weighedNanmean1 P910Demo.weighedNanmean
  have e1 := stack1_tile (· * ·) (fun j i (_ : Fin 1) => x j i - b i) w
  have e2 := stack1_tile notNanTimes (fun j i (_ : Fin 1) => x j i - b i) w
  rw [e1, e2, one_row (fun j i => (x j i - b i) * w i), one_row (fun j i => notNanTimes (x j i - b i) (w i))]
  rfl

theorem p910_body (x : Arr2 (Fl ℝ) J I) (k : ℕ) (s : Arr1 (Fl ℝ) J) (b : Arr1 (Fl ℝ) I) :
    (P910Demo.body x s b).m = (Ap.step (fun j i (_ : Fin 1) => x j i) k s b).s ∧
    (P910Demo.body x s b).b = (Ap.step (fun j i (_ : Fin 1) => x j i) k s b).b ∧
    (P910Demo.body x s b).sigI = (Ap.step (fun j i (_ : Fin 1) => x j i) k s b).vi ∧
    (P910Demo.body x s b).sigJ = (Ap.step (fun j i (_ : Fin 1) => x j i) k s b).vj := by
  have hv : (P910Demo.body x s b).sigI = (Ap.step (fun j i (_ : Fin 1) => x j i) k s b).vi := by
    funext i
    show Np.nanstd 0 (colL (fun j i => x j i - s j - b i) i) = Np.nanstd 0 (colL (stack0 fun j i (_ : Fin 1) => x j i - s j - b i) i)
    rw [one_col (fun j i => x j i - s j - b i)]
  have hm : (P910Demo.body x s b).m = (Ap.step (fun j i (_ : Fin 1) => x j i) k s b).s := by
    show P910Demo.weighedNanmean (fun j i => x j i - b i) (fun i => 1 / (((P910Demo.body x s b).sigI i).sq + Fl.dec 1 100000000)) = _
    rw [← p910_update, hv]
    rfl
  refine ⟨hm, ?_, hv, ?_⟩
  · funext i
    show Np.nanmean (colL (fun j i => x j i - (P910Demo.body x s b).m j) i)
      = Np.nanmean (colL (stack0 fun j i (_ : Fin 1) => x j i - (Ap.step (fun j i (_ : Fin 1) => x j i) k s b).s j) i)
    rw [one_col (fun j i => x j i - (Ap.step (fun j i (_ : Fin 1) => x j i) k s b).s j), hm]
  · funext j
    show Np.nanstd 0 (rowL (fun j i => x j i - s j - b i) j) = Np.nanstd 0 (rowL (stack1 fun j i (_ : Fin 1) => x j i - s j - b i) j)
    rw [one_row (fun j i => x j i - s j - b i)]

theorem p910_loop (x : Arr2 (Fl ℝ) J I) (itr : ℕ) (s : Arr1 (Fl ℝ) J) (b : Arr1 (Fl ℝ) I) :
    (∃ e, P910Demo.loop x itr s b = .error e ∧ Ap.loop (fun j i (_ : Fin 1) => x j i) itr s b = .error e) ∨
    (∃ t f, P910Demo.loop x itr s b = .ok t ∧ Ap.loop (fun j i (_ : Fin 1) => x j i) itr s b = .ok f ∧
      t.m = f.s ∧ t.b = f.b ∧ t.sigI = f.vi ∧ t.sigJ = f.vj) := by
  induction hn : Ap.maxItr - itr using Nat.strong_induction_on generalizing itr s b with
  | _ n ih =>
    obtain ⟨h1, h2, h3, h4⟩ := p910_body x itr s b
    rw [Ap.loop_unfold itr s b, P910Demo.loop]
    rw [h1]
    cases hno : Np.linalgNorm (List.ofFn fun j => s j - (Ap.step (fun j i (_ : Fin 1) => x j i) itr s b).s j) with
    | error e => exact Or.inl ⟨e, rfl, rfl⟩
    | ok d =>
      dsimp only
      by_cases hd : d.lt Ap.deltaThr = true
      · rw [if_pos hd, if_pos (show d.lt (Fl.dec 1 100000000) = true from hd)]
        exact Or.inr ⟨_, _, rfl, rfl, h1, h2, h3, h4⟩
      · rw [if_neg hd, if_neg (show ¬ d.lt (Fl.dec 1 100000000) = true from hd)]
        by_cases hm : Ap.maxItr ≤ itr + 1
        · rw [if_pos (show Ap.maxItr ≤ (Ap.step (fun j i (_ : Fin 1) => x j i) itr s b).itr from hm),
            if_pos (show itr + 1 ≥ 1000 from hm)]
          exact Or.inr ⟨_, _, rfl, rfl, h1, h2, h3, h4⟩
        · rw [if_neg (show ¬ Ap.maxItr ≤ (Ap.step (fun j i (_ : Fin 1) => x j i) itr s b).itr from hm),
            if_neg (show ¬ itr + 1 ≥ 1000 from hm), h2]
          exact ih (Ap.maxItr - (itr + 1)) (by omega) (itr + 1) _ _ rfl

/-- the run of the solver in terms of the fit -/
theorem ap_result {rd : Reader κ ℝ} (hob : ObserversHarmless rd) {x : Arr3 (Fl ℝ) J I R} (ha : rd.scores = .ok ⟨J, I, R, x⟩) :
    (∀ e, Ap.fit x = .error e → runAP2 rd {} = .error e) ∧
    (∀ f, Ap.fit x = .ok f → ∃ res, runAP2 rd {} = .ok res ∧
      res.qualityScores = List.ofFn (fun j => f.s j + Np.mean (List.ofFn f.b)) ∧
      res.qualityScoresStd = some (List.ofFn (Ap.sStdAlt x f.vi f.vj)) ∧
      res.observerBias = some (List.ofFn fun i => f.b i - Np.mean (List.ofFn f.b)) ∧
      res.observerInconsistency = some (List.ofFn f.vi)) := by
  have hp := preprocess_zeromean ha none
  refine ⟨(ap_runs hob hp).2, fun f hf => ?_⟩
  obtain ⟨res, hr⟩ := (ap_runs (sd := Ap.sStdAlt) hob hp).1 f hf
  obtain ⟨p1, f1, hp1, hf1, he⟩ := ap_run hr
  rw [hp] at hp1; cases hp1
  have hf2 := hf1.symm.trans hf
  injection hf2 with hf2
  subst hf2
  rw [post_plain rfl rfl] at he
  refine ⟨res, hr, ?_, ?_, ?_, ?_⟩ <;> rw [he] <;> rfl

end

/-- the demo's dictionary holds the model's values -/
def SameEstimates (d : DemoResult ℝ) (res : Result κ ℝ) : Prop :=
  d.mos = res.qualityScores ∧ some d.sos = res.qualityScoresStd ∧ some d.bias = res.observerBias ∧
    some d.inconsistency = res.observerInconsistency

/-- **C33**.  For every array of votes, the BT.500 demo and `SubjectMLEModelProjectionSolver2` raise the same exception
or report the same quality scores, their standard deviations, observer biases and inconsistencies. -/
theorem C33_bt500_demo (J I R : ℕ) (x : Arr3 (Fl ℝ) J I R) (rd : Reader κ ℝ) (hob : ObserversHarmless rd)
    (ha : rd.scores = .ok ⟨J, I, R, x⟩) :
    (∃ e, Bt500Demo.run x = .error e ∧ runAP2 rd {} = .error e) ∨
    (∃ d res, Bt500Demo.run x = .ok d ∧ runAP2 rd {} = .ok res ∧ SameEstimates d res) := by
  obtain ⟨he, hok⟩ := ap_result hob ha
  have hl := bt500_loop x 0 (meanAlongS x) (Ap.biases x (meanAlongS x))
  have hrun : (∀ e, Bt500Demo.loop x 0 (meanAlongS x) (Ap.biases x (meanAlongS x)) = .error e → Bt500Demo.run x = .error e) ∧
      (∀ t, Bt500Demo.loop x 0 (meanAlongS x) (Ap.biases x (meanAlongS x)) = .ok t → Bt500Demo.run x =
        .ok ⟨List.ofFn fun j => t.m j + Np.mean (List.ofFn t.b), List.ofFn (Bt500Demo.sos t.sigJ x),
             List.ofFn fun i => t.b i - Np.mean (List.ofFn t.b), List.ofFn t.sigI⟩) := by
    constructor <;> intro t ht <;> unfold Bt500Demo.run <;>
    · have ht' : Bt500Demo.loop x 0 (fun j => Np.nanmean (rowL (Bt500Demo.stackCols x) j))
          (Bt500Demo.bias x fun j => Np.nanmean (rowL (Bt500Demo.stackCols x) j)) = _ := ht
      dsimp only
      rw [ht']
  rcases hl with ⟨e, h1, h2⟩ | ⟨t, f, h1, h2, h3, h4, h5, h6⟩
  · exact Or.inl ⟨e, hrun.1 e h1, he e h2⟩
  · obtain ⟨res, hr, q, s, b, v⟩ := hok f h2
    refine Or.inr ⟨_, res, hrun.2 t h1, hr, ?_, ?_, ?_, ?_⟩
    · rw [q, h3, h4]
    · rw [s, h6]; rfl
    · rw [b, h4]
    · rw [v, h5]

/-- **C33**.  On one vote per observer and video, the P.910 and P.913 demos and `SubjectMLEModelProjectionSolver2`
raise the same exception or report the same estimates. -/
theorem C33_p910_demo (J I : ℕ) (x : Arr2 (Fl ℝ) J I) (rd : Reader κ ℝ) (hob : ObserversHarmless rd)
    (ha : rd.scores = .ok ⟨J, I, 1, fun j i _ => x j i⟩) :
    (∃ e, P910Demo.run x = .error e ∧ runAP2 rd {} = .error e) ∨
    (∃ d res, P910Demo.run x = .ok d ∧ runAP2 rd {} = .ok res ∧ SameEstimates d res) := by
  obtain ⟨he, hok⟩ := ap_result hob ha
  have hm : (fun j => Np.nanmean (rowL x j)) = meanAlongS fun j i (_ : Fin 1) => x j i := by
    funext j
    show _ = Np.nanmean (rowL (stack1 fun j i (_ : Fin 1) => x j i) j)
    rw [one_row]
  have hb : ∀ m, P910Demo.bias x m = Ap.biases (fun j i (_ : Fin 1) => x j i) m := by
    intro m; funext i
    show _ = Np.nanmean (colL (stack0 fun j i (_ : Fin 1) => x j i - m j) i)
    rw [one_col (fun j i => x j i - m j)]; rfl
  have hl := p910_loop x 0 (meanAlongS fun j i (_ : Fin 1) => x j i)
    (Ap.biases (fun j i (_ : Fin 1) => x j i) (meanAlongS fun j i (_ : Fin 1) => x j i))
  have hrun : (∀ e, P910Demo.loop x 0 (fun j => Np.nanmean (rowL x j)) (P910Demo.bias x fun j => Np.nanmean (rowL x j)) = .error e →
        P910Demo.run x = .error e) ∧
      (∀ t, P910Demo.loop x 0 (fun j => Np.nanmean (rowL x j)) (P910Demo.bias x fun j => Np.nanmean (rowL x j)) = .ok t →
        P910Demo.run x = .ok ⟨List.ofFn fun j => t.m j + Np.mean (List.ofFn t.b), List.ofFn (P910Demo.sos t.sigJ x),
             List.ofFn fun i => t.b i - Np.mean (List.ofFn t.b), List.ofFn t.sigI⟩) := by
    constructor <;> intro t ht <;> unfold P910Demo.run <;>
    · dsimp only
      rw [ht]
  rw [hb, hm] at hrun
  rcases hl with ⟨e, h1, h2⟩ | ⟨t, f, h1, h2, h3, h4, h5, h6⟩
  · exact Or.inl ⟨e, hrun.1 e h1, he e h2⟩
  · obtain ⟨res, hr, q, s, b, v⟩ := hok f h2
    refine Or.inr ⟨_, res, hrun.2 t h1, hr, ?_, ?_, ?_, ?_⟩
    · rw [q, h3, h4]
    · rw [s, h6]
      refine congrArg (fun g => some (List.ofFn g)) ?_
      funext j
      unfold P910Demo.sos Ap.sStdAlt
      rw [one_row (fun j i => oneOrNan (x j i) / (f.vj j).sq)]; rfl
    · rw [b, h4]
    · rw [v, h5]

/-- both demos return on votes with a missing one -/
example : (∃ d res, Bt500Demo.run exArr = .ok d ∧ runAP2 (arrReader 2 2 1 exArr) {} = .ok res ∧ SameEstimates d res) ∧
    (∃ d res, P910Demo.run (fun j i => exArr j i 0) = .ok d ∧
      runAP2 (arrReader 2 2 1 fun j i _ => exArr j i 0) {} = .ok res ∧ SameEstimates d res) := by
  obtain ⟨res, h⟩ := (C27_succeeds_iff Ap.sStdAlt (arrReader 2 2 1 exArr) (arr_harmless _ _ _ _) _ rfl exArr_rated.1 none).1 exArr_rated.2.1
  have h2 : runAP2 (arrReader 2 2 1 exArr) {} = .ok res := h
  refine ⟨?_, ?_⟩
  · rcases C33_bt500_demo 2 2 1 exArr _ (arr_harmless _ _ _ _) rfl with ⟨e, _, he⟩ | h1
    · rw [h2] at he; cases he
    · exact h1
  · rcases C33_p910_demo 2 2 (fun j i => exArr j i 0) (arrReader 2 2 1 fun j i _ => exArr j i 0) (arr_harmless _ _ _ _) rfl with ⟨e, _, he⟩ | h1
    · rw [show (fun (j i : Fin 2) (_ : Fin 1) => exArr j i 0) = exArr from rfl, h2] at he; cases he
    · exact h1

end Sureal.Props
