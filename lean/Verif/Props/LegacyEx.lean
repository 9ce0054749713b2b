import Verif.Props.Legacy
/-!
# A concrete run for C81, C82 and C83: two videos, two observers, votes (1, 5) and (3, 3)
-/
set_option linter.unusedSectionVars false
namespace Sureal.Props
open Sureal Spec Mle

def exLX : Fin 2 → Fin 2 → Fin 1 → ℝ := fun e s _ => if s = 0 then (if e = 0 then 1 else 5) else 3
def exLξ : Fin 2 → ℝ := fun e => if e = 0 then 2 else 4
noncomputable def exLVotes : Arr3 (Fl ℝ) 2 2 1 := Ap.maskX (fun _ _ _ => true) exLX

noncomputable def exLReader : Reader String ℝ :=
  { dataset := { refVideos := [⟨0, "r0", []⟩], disVideos := [] }
    disVideos := [{ contentId := 0, assetId := 0, path := "d0", os := none }, { contentId := 0, assetId := 1, path := "d1", os := none }]
    scores := .ok ⟨2, 2, 1, exLVotes⟩
    observers := .error .assertion }

/-- a fixed point of the iteration -/
def exLP : Mle.Params ℝ 2 2 1 := ⟨fun e => .fin (exLξ e), fun _ => 0, fun _ => .fin 1, fun _ => 0⟩

theorem exL_regular (c : Fin 2 → Fin 1) : Regular (fun (_ : Fin 2) (_ : Fin 2) (_ : Fin 1) => true) c exLP exLξ (fun _ => 0) (fun _ => 1) (fun _ => 0) :=
  ⟨fun _ _ _ _ => rfl, fun _ _ _ _ => rfl, fun _ _ _ _ => rfl, fun _ _ _ _ => rfl, fun _ _ _ _ => by norm_num⟩

theorem exL_b (c : Fin 2 → Fin 1) : (bSimplified (⟨exLVotes, c⟩ : Data ℝ 2 2 1 1) exLP).1 = fun _ => 0 := by
  funext s
  rw [exLVotes, (bSimplified_newton (X := exLX) (exL_regular c) s ⟨0, 0, rfl⟩).1]
  rw [newtonStep_of_ne (by norm_num), Fl.zero_def]
  congr 1
  fin_cases s <;> norm_num [exLX, exLξ, Fin.sum_univ_two]

theorem exL_v (c : Fin 2 → Fin 1) : (vSimplified (⟨exLVotes, c⟩ : Data ℝ 2 2 1 1) exLP).1 = fun _ => .fin 1 := by
  funext s
  rw [exLVotes, (vSimplified_newton (X := exLX) (exL_regular c) s ⟨0, 0, rfl⟩).1]
  rw [newtonStep_of_ne (by fin_cases s <;> norm_num [exLX, exLξ, cell2, Fin.sum_univ_two])]
  congr 1
  fin_cases s <;> norm_num [exLX, exLξ, cell1, Fin.sum_univ_two]

theorem exL_x (c : Fin 2 → Fin 1) : (xSimplified (⟨exLVotes, c⟩ : Data ℝ 2 2 1 1) exLP).1 = fun e => .fin (exLξ e) := by
  funext e
  rw [exLVotes, (xSimplified_newton (X := exLX) (exL_regular c) e ⟨0, 0, rfl⟩).1]
  rw [newtonStep_of_ne (by norm_num)]
  congr 1
  fin_cases e <;> norm_num [exLX, exLξ, Fin.sum_univ_two]

theorem exL_step (c : Fin 2 → Fin 1) :
    (Mle.step .contentOblivious simplifiedU (⟨exLVotes, c⟩ : Data ℝ 2 2 1 1) exLP).1 = exLP := by
  have m1 : Fl.maximum (Fl.fin (1 : ℝ)) 0 = .fin 1 := by rw [Fl.zero_def, Fl.maximum_fin, max_eq_left zero_le_one]
  have h1 : ({ exLP with b := fun _ => 0 } : Mle.Params ℝ 2 2 1) = exLP := rfl
  have h2 : ({ exLP with v := fun _ => .fin 1 } : Mle.Params ℝ 2 2 1) = exLP := rfl
  have h3 : ({ exLP with a := fun _ => 0 } : Mle.Params ℝ 2 2 1) = exLP := rfl
  unfold Mle.step simplifiedU
  dsimp only
  rw [exL_b]
  simp only [reduceCtorEq, if_false, if_true]
  rw [show (⟨exLP.x, fun _ => 0, exLP.v, exLP.a⟩ : Mle.Params ℝ 2 2 1) = exLP from rfl, exL_v]
  simp only [m1]
  rw [show (⟨exLP.x, fun _ => 0, fun _ => .fin 1, fun _ => 0⟩ : Mle.Params ℝ 2 2 1) = exLP from rfl, exL_x]
  rfl

theorem exL_col (e : Fin 2) : present (videoCells exLVotes e) = [exLX e 0 0, exLX e 1 0] := rfl

theorem exL_mos {mos : Result String ℝ} (h : runMOS exLReader {} = .ok mos) (e : Fin 2) :
    (mos.qualityScores[e.val]?).getD .nan = .fin (exLξ e) := by
  rw [runMOS_default rfl h]
  show ((List.ofFn (meanAlongS exLVotes))[e.val]?).getD .nan = _
  rw [List.getElem?_ofFn]
  simp only [Fin.is_lt, dif_pos, Fin.eta, Option.getD_some]
  rw [meanAlongS_spec _ _ (by intro s r; exact Or.inr ⟨_, rfl⟩)]
  unfold meanOrNan
  rw [exL_col]
  simp only [List.isEmpty_cons, Bool.false_eq_true, if_false]
  congr 1
  fin_cases e <;> norm_num [Spec.mean, exLX, exLξ]

theorem exL_init (c : Fin 2 → Fin 1) : Mle.init .contentOblivious (⟨exLVotes, c⟩ : Data ℝ 2 2 1 1) (fun e => .fin (exLξ e)) = exLP := by
  unfold Mle.init exLP
  dsimp only
  rw [if_neg (by decide), if_pos rfl]
  congr 1
  funext s
  have hm : (fun (e : Fin 2) (s : Fin 2) (t : Fin 1) => exLVotes e s t - .fin (exLξ e)) =
      Ap.maskX (fun _ _ _ => true) (fun e s t => exLX e s t - exLξ e) := rfl
  have hcl : Np.Clean (colL (stack0 fun (e : Fin 2) (s : Fin 2) (t : Fin 1) => exLVotes e s t - .fin (exLξ e)) s) := by
    rw [hm]; exact mask_col_clean _ _ s
  have hpres : present (colL (stack0 fun (e : Fin 2) (s : Fin 2) (t : Fin 1) => exLVotes e s t - .fin (exLξ e)) s) =
      [exLX 0 s 0 - exLξ 0, exLX 1 s 0 - exLξ 1] := by
    rw [colL_stack0]
    rfl
  rw [Np.nanstd, Np.nanvar_eq hcl (by rw [hpres]; simp), hpres]
  have : Spec.sqDev [exLX 0 s 0 - exLξ 0, exLX 1 s 0 - exLξ 1] = 2 := by
    fin_cases s <;> norm_num [Spec.sqDev, Spec.mean, exLX, exLξ]
  rw [this, Fl.sqrt_fin (by norm_num)]
  show Fl.fin (Real.sqrt _) = _
  norm_num

theorem exL_norm : Np.linalgNorm (List.ofFn fun e : Fin 2 => exLP.x e - exLP.x e) = .ok (.fin 0) := by
  have : (fun e : Fin 2 => exLP.x e - exLP.x e) = fun _ => Fl.fin (0 : ℝ) := by
    funext e
    show Fl.fin (exLξ e) - Fl.fin (exLξ e) = _
    rw [Fl.fin_sub, sub_self]
  rw [this]
  unfold Np.linalgNorm
  rw [if_pos (by simp [Fl.isFinite])]
  have : Np.sum ((List.ofFn fun _ : Fin 2 => Fl.fin (0 : ℝ)).map (·.sq)) = .fin 0 := by
    simp [Np.sum, Fl.sq_fin, Fl.zero_def, Fl.fin_add]
  rw [this, Fl.sqrt_fin le_rfl]
  show Except.ok (Fl.fin (Real.sqrt 0)) = _
  rw [Real.sqrt_zero]

theorem exL_lt : (Fl.fin (0 : ℝ)).lt (defaultThr : Fl ℝ) = true := by
  unfold defaultThr Fl.dec
  rw [Fl.lt_fin]
  norm_num

theorem exL_positive : VariancesStayPositive .contentOblivious exLReader {} := by
  intro p C mos cid hp hC hm hcid
  have hp' : p = { arr := ⟨2, 2, 1, exLVotes⟩, orig := ⟨2, 2, 1, exLVotes⟩ } := by
    have := preprocess_default (rd := exLReader) rfl
    rw [this] at hp
    exact (Except.ok.inj hp).symm
  subst hp'
  have hC' : C = 1 := by
    have : numContents exLReader = .ok 1 := rfl
    rw [this] at hC
    exact (Except.ok.inj hC).symm
  subst hC'
  have hq : (fun e : Fin 2 => (mos.qualityScores[e.val]?).getD .nan) = fun e => Fl.fin (exLξ e) := funext fun e => exL_mos hm e
  refine ⟨fun e s r => Or.inr ⟨_, rfl⟩, ?_⟩
  dsimp only at cid ⊢
  have hpos : ∀ q, Visited .contentOblivious simplifiedU defaultThr (⟨exLVotes, cid⟩ : Data ℝ 2 2 1 1) exLP q → q = exLP := by
    intro q hq
    induction hq with
    | start => rfl
    | next hv hd hlt ih =>
      exfalso
      subst ih
      rw [exL_step, exL_norm] at hd
      have hδ := (Except.ok.inj hd).symm
      rw [hδ, exL_lt] at hlt
      cases hlt
  intro q hv
  show VariancesPositive (⟨exLVotes, cid⟩ : Data ℝ 2 2 1 1) q ∧ _
  have hv' := hpos q (by
    have h0 := exL_init cid
    rw [← h0, ← hq]
    exact hv)
  rw [hv']
  refine ⟨fun e s r v _ => ⟨1, 0, rfl, rfl, by norm_num⟩, ?_⟩
  intro e s r v _
  erw [exL_step]
  exact ⟨1, 0, rfl, rfl, by norm_num⟩

/-- the newer model finishes after one pass -/
theorem exL_run : ∃ res, runMLE_CO exLReader {} = .ok res ∧ res.numIter = some 1 := by
  have hp := preprocess_default (rd := exLReader) rfl
  obtain ⟨mos, hm⟩ : ∃ mos, runMOS exLReader {} = .ok mos := by
    unfold runMOS runModeling mosRunModeling
    rw [hp]
    exact ⟨_, rfl⟩
  obtain ⟨cid, hcid⟩ : ∃ cid, contentIndex (contentIdOfDisVideos exLReader.disVideos) 2 1 = .ok cid :=
    ⟨_, dif_pos ⟨rfl, by intro c hc; simp [exLReader, contentIdOfDisVideos] at hc; subst hc; decide⟩⟩
  have hq : (fun e : Fin 2 => (mos.qualityScores[e.val]?).getD .nan) = fun e => Fl.fin (exLξ e) := funext fun e => exL_mos hm e
  have hdens : density (K := ℝ) none 1 = .ok fun o x b v a => gaussian o (x + b) (vadd v a).sqrt := rfl
  have hf : fitArr .contentOblivious .simplified none defaultThr (⟨exLVotes, cid⟩ : Data ℝ 2 2 1 1)
      (fun e => (mos.qualityScores[e.val]?).getD .nan) = .ok ⟨exLP,
        (Mle.step .contentOblivious simplifiedU (⟨exLVotes, cid⟩ : Data ℝ 2 2 1 1) exLP).2, 1⟩ := by
    unfold fitArr
    show Mle.loop .contentOblivious simplifiedU none defaultThr _ 0 _ = _
    rw [hq, exL_init, loop_stop hdens (by
      rw [exL_step, exL_norm]
      exact exL_lt) 0, exL_step]
  obtain ⟨obs, hr⟩ := run_fwd (⟨by decide, rfl, hp, rfl, hm, hcid, hf, hdens, Or.inr rfl⟩ :
    RunOf .contentOblivious exLReader {} { arr := ⟨2, 2, 1, exLVotes⟩, orig := ⟨2, 2, 1, exLVotes⟩ } 1 .simplified mos cid
      ⟨exLP, (Mle.step .contentOblivious simplifiedU (⟨exLVotes, cid⟩ : Data ℝ 2 2 1 1) exLP).2, 1⟩ _)
  exact ⟨_, hr, rfl⟩

/-- the hypotheses of `C81_agrees` on the example -/
theorem exL_legacy : ∃ res', runLegacy exLReader {} = .ok res' := by
  obtain ⟨res, hr, hn⟩ := exL_run
  obtain ⟨res', h, _⟩ := C81_agrees exLReader {} ⟨rfl, rfl, rfl, rfl, rfl⟩ (Or.inl rfl) rfl exLVotes rfl
    (fun s => ⟨0, by unfold exLVotes Ap.maskX; simp⟩) exL_positive res hr 1 hn (by norm_num)
  exact ⟨res', h⟩

/-- the same dataset with a third subject who did not vote -/
noncomputable def exLReader' : Reader String ℝ :=
  { exLReader with scores := .ok ⟨2, 3, 1, fun e s r => if h : s.val < 2 then exLVotes e ⟨s.val, h⟩ r else .nan⟩ }

/-- the hypotheses of `C83_silent` on the example: the silent subject does not prevent a result, and is reported as NaN -/
example : ∃ res', runLegacy exLReader' {} = .ok res' ∧ ∃ b' : Fin 3 → Fl ℝ, res'.observerBias = some (List.ofFn b') ∧ b' 2 = .nan := by
  obtain ⟨res, hr⟩ := exL_legacy
  obtain ⟨res', h1, _, b', v', h2, h3, _⟩ := (C83_silent {} ⟨rfl, rfl, rfl, rfl, rfl⟩ false exLReader exLReader' (2 : Fin 3) exLVotes
    (fun e s r => if h : s.val < 2 then exLVotes e ⟨s.val, h⟩ r else .nan) rfl rfl
    (fun e he => by cases he; exact Or.inl rfl) (fun e he => by cases he; exact Or.inl rfl)
    (fun e => rfl) (fun e s => by fin_cases s <;> rfl)).2 res hr
  exact ⟨res', h1, b', h2, h3⟩

/-- the hypotheses of `C82_newton_steps` on the example, with `use_log`: the step leaves the logarithm 0 of the inconsistency 1 -/
example : ∃ d1 d2, Derivs (fun t => logLik (fun _ _ _ => true) exLX (fun _ => (0 : Fin 1)) exLξ (fun _ => 0) (setEntry (fun _ => 1) 0 (Real.exp t)) (fun _ => 0))
      (Real.log 1) d1 d2 ∧
    (Legacy.step true (fun e s => exLVotes e s 0) ⟨fun e => .fin (exLξ e), fun _ => 0, fun _ => .fin 1, fun _ => .fin (Real.log 1)⟩).lv 0 = newtonStep (Real.log 1) d1 d2 := by
  obtain ⟨β', h1, _, h3, _⟩ := C82_newton_steps true (fun e s => exLVotes e s 0) (fun _ _ _ => true) exLX (fun _ _ => rfl)
    ⟨fun e => .fin (exLξ e), fun _ => 0, fun _ => .fin 1, fun _ => .fin (Real.log 1)⟩ exLξ (fun _ => 0) (fun _ => 1)
    (fun _ _ _ => rfl) (fun _ _ _ => rfl) (fun _ _ _ => rfl) (fun _ _ _ => one_pos) (fun _ _ _ _ => rfl)
  have hβ : β' = fun _ => 0 := by
    funext s
    obtain ⟨_, d1, d2, hd, hlt, hv⟩ := h1 s ⟨0, rfl⟩
    have hd' := Mle.derivs_b (P := fun (_ : Fin 2) (_ : Fin 2) (_ : Fin 1) => true) (X := exLX) (cid := fun _ => (0 : Fin 1)) (ξ := exLξ)
      (β := fun _ => 0) (ν := fun _ => 1) (α := fun _ => 0) (fun _ _ _ _ => by norm_num) s
    have h0 : (∑ e : Fin 2, ∑ r : Fin 1, if true = true then (exLX e s r - exLξ e - 0) / ((1 : ℝ) ^ 2 + 0 ^ 2) else 0) = 0 := by
      fin_cases s <;> norm_num [exLX, exLξ, Fin.sum_univ_two]
    have : d1 = 0 := by
      obtain ⟨f, hf1, hf2, _⟩ := hd
      obtain ⟨g, hg1, hg2, _⟩ := hd'
      have hu := hf1.self_of_nhds.unique hg1.self_of_nhds
      rw [← hf2, hu, hg2]
      exact h0
    rw [hv, this]
    simp
  obtain ⟨d1, d2, hd, hl, _⟩ := h3 rfl 0 ⟨0, rfl⟩
  rw [hβ] at hd
  exact ⟨d1, d2, hd, hl⟩

end Sureal.Props
