import Verif.Spec.Criteria
import Verif.Props.MleMethods
/-! # C72: information criteria of the MLE models -/
set_option linter.unusedSectionVars false
namespace Sureal.Props
open Sureal Spec Mle
variable {κ : Type}

theorem postprocessScores_length (o : Opts ℝ) (l : List (Fl ℝ)) : (postprocessScores o l).length = l.length := by
  unfold postprocessScores
  dsimp only
  have h : (if o.normalizeFinal.isFalse = true then l else l.map fun x => (x - Np.mean l) / Np.std l).length = l.length := by
    split <;> simp
  split
  · exact h
  · rw [List.length_map]; exact h

theorem dscoreStep_shape {K : Type} [Field K] [LinearOrder K] [IsStrictOrderedRing K] [MathFn K] {rd : Reader κ K} {a b : Arr3D (Fl K)} (h : dscoreStep rd a = .ok b) : b.E = a.E ∧ b.S = a.S ∧ b.R = a.R := by
  unfold dscoreStep at h
  cases hr : rd.dataset.refScore with
  | none => rw [hr] at h; cases h
  | some x =>
    cases x with
    | none => rw [hr] at h; cases h
    | some rs =>
      rw [hr] at h
      dsimp only at h
      cases hm : refMos rd (List.ofFn (meanAlongS a.get)) with
      | error e => rw [hm] at h; cases h
      | ok rm =>
        rw [hm] at h
        dsimp only at h
        split at h
        · cases h; exact ⟨rfl, rfl, rfl⟩
        · split at h
          · cases h; exact ⟨rfl, rfl, rfl⟩
          · cases h

theorem preprocess_shape {K : Type} [Field K] [LinearOrder K] [IsStrictOrderedRing K] [MathFn K] {rd : Reader κ K} {o : Opts K} {p : Prep K} (hn : ¬ o.subjectRejection.isTrue = true)
    (h : preprocess rd o = .ok p) : rd.scores = .ok p.orig ∧ p.arr.E = p.orig.E ∧ p.arr.S = p.orig.S ∧ p.arr.R = p.orig.R := by
  unfold preprocess at h
  cases hs : rd.scores with
  | error e => rw [hs] at h; cases h
  | ok a0 =>
    rw [hs] at h
    dsimp only at h
    cases hc : checkOpts o with
    | error e => rw [hc] at h; cases h
    | ok ty =>
      rw [hc] at h
      dsimp only at h
      cases hd : (if o.dscoreMode.isTrue then dscoreStep rd a0 else .ok a0 : Py (Arr3D (Fl K))) with
      | error e => rw [hd] at h; cases h
      | ok a1 =>
        rw [hd] at h
        dsimp only at h
        have h1 : a1.E = a0.E ∧ a1.S = a0.S ∧ a1.R = a0.R := by
          split at hd
          · exact dscoreStep_shape hd
          · cases hd; exact ⟨rfl, rfl, rfl⟩
        unfold rejectStep at h
        rw [if_neg hn] at h
        cases h
        refine ⟨rfl, ?_⟩
        dsimp only
        cases o.zscoreMode.isTrue <;> cases o.biasOffset.isTrue <;> exact h1

theorem voteCount_pos {E S R : ℕ} {P : Fin E → Fin S → Fin R → Bool} (hne : ∃ e s r, P e s r = true) : 0 < voteCount P := by
  obtain ⟨e, s, r, hP⟩ := hne
  unfold voteCount
  refine Finset.sum_pos' (fun _ _ => Nat.zero_le _) ⟨e, Finset.mem_univ _, ?_⟩
  refine Finset.sum_pos' (fun _ _ => Nat.zero_le _) ⟨s, Finset.mem_univ _, ?_⟩
  refine Finset.sum_pos' (fun _ _ => Nat.zero_le _) ⟨r, Finset.mem_univ _, ?_⟩
  rw [if_pos hP]; exact one_pos

/-- **C72.** Every completed run of an MLE variant on a dataset with a vote, with any options. The criteria are those of
Akaike and of Schwarz per vote, computed from the reported log-likelihood, the number of votes of the dataset and the
reported degrees of freedom per vote. Times the number of votes, the latter are the number of reported parameters plus
`2 S (R - 1)` if observers are modelled, where `S` is the number of observers and `R` the number of repetitions. -/
theorem C72_criteria (mode : Mode) (rd : Reader κ ℝ) (o : Mle.Opts ℝ) (res : Result κ ℝ) (h : Mle.run mode rd o = .ok res)
    (a : Arr3D (Fl ℝ)) (ha : rd.scores = .ok a)
    (P : Fin a.E → Fin a.S → Fin a.R → Bool) (X : Fin a.E → Fin a.S → Fin a.R → ℝ)
    (hX : ∀ e s r, a.get e s r = mask (P e s r) (X e s r)) (hne : ∃ e s r, P e s r = true) :
    ∃ (D : ℝ) (ll : Fl ℝ), res.dof = some (.fin D) ∧ res.loglikelihood = some ll ∧
      res.aic = some (.fin (2 * D) - .fin 2 * ll) ∧
      res.bic = some (.fin (Real.log (voteCount P) * D) - .fin 2 * ll) ∧
      D * voteCount P = reportedParameters res + if mode = .subjectOblivious then 0 else 2 * a.S * ((a.R : ℝ) - 1) := by
  obtain ⟨p, C, m, mos, cid, f, dens, obs, hrun, hres⟩ := Mle.run_inv h
  obtain ⟨hs, e1, e2, e3⟩ := preprocess_shape hrun.hsr hrun.hp
  have hpa : p.orig = a := by rw [hs] at ha; exact Except.ok.inj ha
  subst hpa
  have hget : p.orig.get = Ap.maskX P X := by funext e s r; exact hX e s r
  have hcnt : Np.countNotNan (ravel3 p.orig.get) = voteCount P := by rw [hget, count_mask]; rfl
  have hpos : 0 < voteCount P := voteCount_pos hne
  have hposR : (0 : ℝ) < voteCount P := by exact_mod_cast hpos
  have hdof : (((Mle.dof mode p.orig.E p.orig.S C p.orig.R : ℕ) : Fl ℝ) / ((Np.countNotNan (ravel3 p.orig.get) : ℕ) : Fl ℝ)) =
      .fin ((Mle.dof mode p.orig.E p.orig.S C p.orig.R : ℝ) / voteCount P) := by
    rw [hcnt, Fl.natCast_def, Fl.natCast_def, Fl.fin_div hposR.ne']
  refine ⟨(Mle.dof mode p.orig.E p.orig.S C p.orig.R : ℝ) / voteCount P, Np.sum (List.ofFn (Mle.sumS (Mle.logCells dens
    (⟨p.arr.get, cid⟩ : Data ℝ p.arr.E p.arr.S p.arr.R C) (Mle.centre (Ap.forced o.base) f.p)))) / ((Np.countNotNan (ravel3 p.arr.get) : ℕ) : Fl ℝ),
    ?_, ?_, ?_, ?_, ?_⟩
  · rw [hres]; exact congrArg some hdof
  · rw [hres]; rfl
  · rw [hres]
    show some (((2 : ℕ) : Fl ℝ) * _ - ((2 : ℕ) : Fl ℝ) * _) = _
    rw [hdof, Fl.natCast_def, Fl.fin_mul]
    norm_num
  · rw [hres]
    show some ((((Np.countNotNan (ravel3 p.orig.get) : ℕ) : Fl ℝ)).log * _ - ((2 : ℕ) : Fl ℝ) * _) = _
    rw [hdof, hcnt, Fl.natCast_def, Fl.natCast_def, Fl.log_fin hposR, Fl.fin_mul]
    norm_num
    rfl
  · rw [div_mul_cancel₀ _ hposR.ne', hres]
    unfold reportedParameters Mle.result Mle.dof
    dsimp only
    rw [postprocessScores_length, List.length_ofFn]
    cases mode
    · simp only [reduceCtorEq, if_false, entriesIn, List.length_ofFn, e1, e2]
      push_cast; ring
    · simp only [reduceCtorEq, if_false, if_true, entriesIn, List.length_ofFn, e1, e2]
      push_cast; ring
    · simp only [reduceCtorEq, if_false, if_true, entriesIn, List.length_ofFn, e1]
      push_cast; ring

/-- **C72, in part.** Without repetitions, or when observers are not modelled, the degrees of freedom times the number of
votes are the number of reported parameters. The full claim drops the hypothesis `hR`; `C72_refuted` shows it is false. -/
theorem C72_freedom_partial (mode : Mode) (rd : Reader κ ℝ) (o : Mle.Opts ℝ) (res : Result κ ℝ) (h : Mle.run mode rd o = .ok res)
    (a : Arr3D (Fl ℝ)) (ha : rd.scores = .ok a)
    (P : Fin a.E → Fin a.S → Fin a.R → Bool) (X : Fin a.E → Fin a.S → Fin a.R → ℝ)
    (hX : ∀ e s r, a.get e s r = mask (P e s r) (X e s r)) (hne : ∃ e s r, P e s r = true)
    (hR : a.R = 1 ∨ mode = .subjectOblivious) :
    res.dof = some (.fin ((reportedParameters res : ℝ) / voteCount P)) := by
  obtain ⟨D, ll, h1, -, -, -, h5⟩ := C72_criteria mode rd o res h a ha P X hX hne
  have hpos : 0 < voteCount P := voteCount_pos hne
  have hposR : (voteCount P : ℝ) ≠ 0 := by exact_mod_cast hpos.ne'
  rw [h1]
  congr 2
  refine eq_div_of_mul_eq hposR ?_
  rw [h5]
  rcases hR with hR | hR
  · rw [hR]; simp
  · rw [if_pos hR, add_zero]

/-! ### A dataset with a repetition -/

def crX : Fin 1 → Fin 1 → Fin 2 → ℝ := fun _ _ r => if r = 0 then 1 else 3
def crVotes : Arr3 (Fl ℝ) 1 1 2 := Ap.maskX (fun _ _ _ => true) crX

def crReader : Reader String ℝ :=
  { dataset := { refVideos := [⟨0, "r0", []⟩], disVideos := [] }
    disVideos := [{ contentId := 0, assetId := 0, path := "d0", os := none }]
    scores := .ok ⟨1, 1, 2, crVotes⟩
    observers := .error .assertion }

/-- the parameters at which the run starts and ends -/
def crP : Params ℝ 1 1 1 := ⟨fun _ => .fin 2, fun _ => .fin 0, fun _ => .fin 1, fun _ => .fin 0⟩

theorem cr_regular (c : Fin 1 → Fin 1) : Regular (fun (_ : Fin 1) (_ : Fin 1) (_ : Fin 2) => true) c crP (fun _ => 2) (fun _ => 0) (fun _ => 1) (fun _ => 0) :=
  ⟨fun _ _ _ _ => rfl, fun _ _ _ _ => rfl, fun _ _ _ _ => rfl, fun _ _ _ _ => rfl, fun _ _ _ _ => by norm_num⟩

theorem cr_b (c : Fin 1 → Fin 1) : (bSimplified (⟨crVotes, c⟩ : Data ℝ 1 1 2 1) crP).1 = fun _ => .fin 0 := by
  funext s
  unfold crVotes
  rw [(bSimplified_newton (X := crX) (cr_regular c) s ⟨0, 0, rfl⟩).1, newtonStep_of_ne (by norm_num)]
  norm_num [crX, Fin.sum_univ_two]

theorem cr_v (c : Fin 1 → Fin 1) : (vSimplified (⟨crVotes, c⟩ : Data ℝ 1 1 2 1) crP).1 = fun _ => .fin 1 := by
  funext s
  unfold crVotes
  rw [(vSimplified_newton (X := crX) (cr_regular c) s ⟨0, 0, rfl⟩).1,
    newtonStep_of_ne (by norm_num [crX, cell2, Fin.sum_univ_two])]
  norm_num [crX, cell1, Fin.sum_univ_two]

theorem cr_x (c : Fin 1 → Fin 1) : (xSimplified (⟨crVotes, c⟩ : Data ℝ 1 1 2 1) crP).1 = fun _ => .fin 2 := by
  funext e
  unfold crVotes
  rw [(xSimplified_newton (X := crX) (cr_regular c) e ⟨0, 0, rfl⟩).1, newtonStep_of_ne (by norm_num)]
  norm_num [crX, Fin.sum_univ_two]

theorem cr_step (c : Fin 1 → Fin 1) : (step .contentOblivious ⟨bSimplified, vSimplified, aSimplified, xSimplified⟩
    (⟨crVotes, c⟩ : Data ℝ 1 1 2 1) crP).1 = crP := by
  have m1 : Fl.maximum (Fl.fin (1 : ℝ)) 0 = .fin 1 := by rw [Fl.zero_def, Fl.maximum_fin, max_eq_left zero_le_one]
  have e0 : (⟨crP.x, fun _ => .fin 0, crP.v, crP.a⟩ : Params ℝ 1 1 1) = crP := rfl
  have e1 : (⟨crP.x, fun _ => .fin 0, fun _ => .fin 1, crP.a⟩ : Params ℝ 1 1 1) = crP := rfl
  have e2 : (⟨crP.x, fun _ => .fin 0, fun _ => .fin 1, fun _ => 0⟩ : Params ℝ 1 1 1) = crP := rfl
  unfold step
  simp only [reduceCtorEq, if_false, if_true]
  rw [cr_b, e0]
  simp only [cr_v, m1]
  rw [e2, cr_x]
  rfl

theorem cr_init (c : Fin 1 → Fin 1) : init .contentOblivious (⟨crVotes, c⟩ : Data ℝ 1 1 2 1) (fun _ => .fin 2) = crP := by
  unfold init
  dsimp only
  rw [if_neg (by decide), if_pos rfl]
  unfold crP
  congr 1
  funext s
  have hcl : Np.Clean (colL (stack0 fun (e : Fin 1) (s : Fin 1) (t : Fin 2) => crVotes e s t - .fin 2) s) := by
    have : (fun (e : Fin 1) (s : Fin 1) (t : Fin 2) => crVotes e s t - Fl.fin 2) =
      Ap.maskX (fun _ _ _ => true) (fun e s t => crX e s t - 2) := rfl
    rw [this]
    exact mask_col_clean _ _ s
  have hpres : present (colL (stack0 fun (e : Fin 1) (s : Fin 1) (t : Fin 2) => crVotes e s t - .fin 2) s) = [crX 0 0 0 - 2, crX 0 0 1 - 2] := by
    rw [colL_stack0]
    fin_cases s; rfl
  rw [Np.nanstd, Np.nanvar_eq hcl (by rw [hpres]; simp), hpres]
  have : Spec.sqDev [crX 0 0 0 - 2, crX 0 0 1 - 2] = 2 := by norm_num [Spec.sqDev, Spec.mean, crX]
  rw [this, Fl.sqrt_fin (by norm_num)]
  show Fl.fin (Real.sqrt _) = _
  norm_num

theorem cr_run : ∃ res, Mle.run .contentOblivious crReader {} = .ok res := by
  have hp := preprocess_default (rd := crReader) rfl
  obtain ⟨mos, hm⟩ : ∃ mos, runMOS crReader {} = .ok mos := by
    unfold runMOS runModeling mosRunModeling
    rw [hp]
    exact ⟨_, rfl⟩
  obtain ⟨cid, hcid⟩ : ∃ cid, contentIndex (contentIdOfDisVideos crReader.disVideos) 1 1 = .ok cid :=
    ⟨_, dif_pos ⟨rfl, by intro c hc; simp [crReader, contentIdOfDisVideos] at hc; subst hc; decide⟩⟩
  have hq : (fun e : Fin 1 => (mos.qualityScores[e.val]?).getD .nan) = fun _ => Fl.fin (2 : ℝ) := by
    funext e
    rw [runMOS_default rfl hm]
    have hq : (mosAndStats (fun E _ _ => E * 2) ⟨1, 1, 2, crVotes⟩ ⟨1, 1, 2, crVotes⟩ : Result String ℝ).qualityScores =
      List.ofFn (meanAlongS crVotes) := rfl
    dsimp only
    rw [hq]
    have : meanAlongS crVotes e = .fin 2 := by
      rw [meanAlongS_spec _ _ (by intro s r; exact Or.inr ⟨_, rfl⟩)]
      have hp : present (videoCells crVotes e) = [1, 3] := rfl
      unfold meanOrNan
      rw [hp]
      norm_num [Spec.mean]
    have he : e = 0 := Subsingleton.elim _ _
    subst he
    simpa using this
  have hdens : density (K := ℝ) none 2 = .ok fun o x b v a => gaussian o (x + b) (vadd v a).sqrt := rfl
  have hf : fitArr .contentOblivious .simplified none defaultThr (⟨crVotes, cid⟩ : Data ℝ 1 1 2 1)
      (fun e => (mos.qualityScores[e.val]?).getD .nan) = .ok ⟨crP,
        (step .contentOblivious ⟨bSimplified, vSimplified, aSimplified, xSimplified⟩ (⟨crVotes, cid⟩ : Data ℝ 1 1 2 1) crP).2, 1⟩ := by
    unfold fitArr
    show loop .contentOblivious _ none defaultThr _ 0 _ = _
    rw [hq, cr_init, loop_stop hdens (by
      rw [cr_step]
      show (match Np.linalgNorm (List.ofFn fun _ : Fin 1 => Fl.fin (2 : ℝ) - Fl.fin 2) with | .ok delta => delta.lt defaultThr | .error _ => false) = true
      rw [ex_norm]
      dsimp only
      unfold defaultThr Fl.dec
      rw [Fl.lt_fin]
      norm_num) 0, cr_step]
  obtain ⟨obs, hr⟩ := run_fwd (⟨by decide, rfl, hp, rfl, hm, hcid, hf, hdens, Or.inr rfl⟩ :
    RunOf .contentOblivious crReader {} { arr := ⟨1, 1, 2, crVotes⟩, orig := ⟨1, 1, 2, crVotes⟩ } 1 .simplified mos cid
      ⟨crP, (step .contentOblivious ⟨bSimplified, vSimplified, aSimplified, xSimplified⟩ (⟨crVotes, cid⟩ : Data ℝ 1 1 2 1) crP).2, 1⟩ _)
  exact ⟨_, hr⟩

/-- the hypotheses of `C72_criteria` on the dataset with a repetition -/
example : ∃ res, Mle.run .contentOblivious crReader {} = .ok res ∧ ∃ D : ℝ, res.dof = some (.fin D) ∧
    D * 2 = reportedParameters res + 2 := by
  obtain ⟨res, hr⟩ := cr_run
  obtain ⟨D, ll, h1, -, -, -, h5⟩ := C72_criteria .contentOblivious crReader {} res hr _ rfl (fun _ _ _ => true) crX
    (fun _ _ _ => rfl) ⟨0, 0, 0, rfl⟩
  refine ⟨res, hr, D, h1, ?_⟩
  have : voteCount (fun (_ : Fin 1) (_ : Fin 1) (_ : Fin 2) => true) = 2 := rfl
  rw [this] at h5
  rw [if_neg (by decide)] at h5
  norm_num [crReader] at h5
  exact h5

/-- **C72, refuted.** One observer rates one video twice. The run completes, and the reported degrees of freedom count more
parameters than the three (quality score, bias, inconsistency) which are reported: the biases and inconsistencies are
counted once per repetition. -/
theorem C72_refuted : ∃ res, Mle.run .contentOblivious crReader {} = .ok res ∧
    res.dof ≠ some (.fin ((reportedParameters res : ℝ) / 2)) := by
  obtain ⟨res, hr⟩ := cr_run
  obtain ⟨D, ll, h1, -, -, -, h5⟩ := C72_criteria .contentOblivious crReader {} res hr _ rfl (fun _ _ _ => true) crX
    (fun _ _ _ => rfl) ⟨0, 0, 0, rfl⟩
  refine ⟨res, hr, ?_⟩
  have : voteCount (fun (_ : Fin 1) (_ : Fin 1) (_ : Fin 2) => true) = 2 := rfl
  rw [this] at h5
  rw [if_neg (by decide)] at h5
  norm_num [crReader] at h5
  rw [h1]
  intro hc
  have := Fl.fin_inj.mp (Option.some.inj hc)
  linarith

/-- the hypotheses of `C72_freedom_partial` on a dataset without repetitions: 2·2 + 1 + 1 parameters, two votes -/
example : ∃ res, runMLE exMleReader {} = .ok res ∧ res.dof = some (.fin (6 / 2)) := by
  obtain ⟨res, hr, h1, h2, h3, h4, h5⟩ := ex_run
  refine ⟨res, hr, ?_⟩
  rw [C72_freedom_partial .default exMleReader {} res hr _ rfl (fun _ _ _ => true) exX
    (fun e s r => congrFun (congrFun (congrFun exVotes_mask e) s) r) ⟨0, 0, 0, rfl⟩ (Or.inl rfl)]
  have hn : voteCount (fun (_ : Fin 1) (_ : Fin 2) (_ : Fin 1) => true) = 2 := rfl
  have hk : reportedParameters res = 6 := by
    unfold reportedParameters
    rw [h2, h3, h4, h5]
    rfl
  rw [hk]
  congr 3

end Sureal.Props
