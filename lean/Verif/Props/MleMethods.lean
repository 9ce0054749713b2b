import Verif.Lemmas.MleMethods
import Verif.Props.MleGrad
/-!
# C34: the gradient methods 'simplified' and 'original' are the same program while the variances stay positive
-/
set_option linter.unusedSectionVars false
namespace Sureal.Props
open Sureal Spec Mle
variable {κ : Type}

/-- The votes after preprocessing are numbers or missing, and in all parameters which the loop of the 'simplified'
method passes through (`Visited`, starting from the initial values) and in those after the pass every vote has a
positive variance. -/
def VariancesStayPositive (mode : Mode) (rd : Reader κ ℝ) (o : Mle.Opts ℝ) : Prop :=
  ∀ (p : Prep ℝ) (C : ℕ) (mos : Result κ ℝ) (cid : Fin p.arr.E → Fin C), preprocess rd o.base = .ok p →
    numContents rd = .ok C → runMOS rd {} = .ok mos →
    contentIndex (contentIdOfDisVideos rd.disVideos) p.arr.E C = .ok cid →
    (∀ e s r, NumOrNan (p.arr.get e s r)) ∧
    ∀ q, Visited mode ⟨bSimplified, vSimplified, aSimplified, xSimplified⟩ (o.deltaThr.getD defaultThr)
        (⟨p.arr.get, cid⟩ : Data ℝ p.arr.E p.arr.S p.arr.R C)
        (init mode ⟨p.arr.get, cid⟩ fun e => (mos.qualityScores[e.val]?).getD .nan) q →
      VariancesPositive (⟨p.arr.get, cid⟩ : Data ℝ p.arr.E p.arr.S p.arr.R C) q ∧
      VariancesPositive (⟨p.arr.get, cid⟩ : Data ℝ p.arr.E p.arr.S p.arr.R C)
        (step mode ⟨bSimplified, vSimplified, aSimplified, xSimplified⟩ ⟨p.arr.get, cid⟩ q).1

/-- **C34.** For every dataset, mode and further options: if all variances stay positive, the model gives with
`gradient_method='original'` the same outcome (the whole result, or the same exception) as with `'simplified'`. -/
theorem C34_methods (mode : Mode) (rd : Reader κ ℝ) (o : Mle.Opts ℝ) (h : VariancesStayPositive mode rd o) :
    Mle.run mode rd { o with gradientMethod := some "original" } =
      Mle.run mode rd { o with gradientMethod := some "simplified" } := by
  have key : runModelingWith mode rd { o with gradientMethod := some "original" } =
      runModelingWith mode rd { o with gradientMethod := some "simplified" } := by
    unfold runModelingWith
    dsimp only
    rw [show method { o with gradientMethod := some "original" } = .ok .original from rfl,
      show method { o with gradientMethod := some "simplified" } = .ok .simplified from rfl]
    dsimp only
    split
    · rfl
    cases hp : preprocess rd o.base with
    | error e => rfl
    | ok p =>
      dsimp only
      cases hC : numContents rd with
      | error e => rfl
      | ok C =>
        dsimp only
        cases hm : runMOS rd {} with
        | error e => rfl
        | ok mos =>
          dsimp only
          cases hcid : contentIndex (contentIdOfDisVideos rd.disVideos) p.arr.E C with
          | error e => rfl
          | ok cid =>
            dsimp only
            obtain ⟨hclean, hvis⟩ := h p C mos cid hp hC hm hcid
            have harr := exists_mask p.arr.get hclean
            have hfit : fitArr mode .original o.numericalPdf (o.deltaThr.getD defaultThr)
                (⟨p.arr.get, cid⟩ : Data ℝ p.arr.E p.arr.S p.arr.R C) (fun e => (mos.qualityScores[e.val]?).getD .nan) =
              fitArr mode .simplified o.numericalPdf (o.deltaThr.getD defaultThr)
                (⟨p.arr.get, cid⟩ : Data ℝ p.arr.E p.arr.S p.arr.R C) (fun e => (mos.qualityScores[e.val]?).getD .nan) := by
              unfold fitArr
              show loop mode originalU _ _ _ 0 _ = loop mode simplifiedU _ _ _ 0 _
              have hmask : p.arr.get = Ap.maskX (fun e s r => !(p.arr.get e s r).isNan) (fun e s r => (p.arr.get e s r).val?.getD 0) := harr
              generalize hP : (fun e s r => !(p.arr.get e s r).isNan) = P at hmask
              generalize hX : (fun e s r => (p.arr.get e s r).val?.getD 0) = X at hmask
              clear hP hX harr hclean
              clear hp hcid
              revert hvis
              rw [hmask]
              intro hvis
              exact loop_methods mode _ _ P X cid _ hvis _ 0 rfl _ Visited.start (fun e s r _ => ⟨0, rfl⟩)
            rw [hfit]
            cases fitArr mode .simplified o.numericalPdf (o.deltaThr.getD defaultThr)
                (⟨p.arr.get, cid⟩ : Data ℝ p.arr.E p.arr.S p.arr.R C) (fun e => (mos.qualityScores[e.val]?).getD .nan) with
            | error e => rfl
            | ok f =>
              dsimp only
              cases rd.observers with
              | ok l => rfl
              | error e => rfl
  unfold Mle.run runModeling
  dsimp only at key ⊢
  rw [key]

/-! ### a concrete run over the reals: one video, two observers, votes 1 and 3 -/

def exVotes : Arr3 (Fl ℝ) 1 2 1 := fun _ s _ => if s = 0 then .fin 1 else .fin 3

def exMleReader : Reader String ℝ :=
  { dataset := { refVideos := [⟨0, "r0", []⟩], disVideos := [] }
    disVideos := [{ contentId := 0, assetId := 0, path := "d0", os := none }]
    scores := .ok ⟨1, 2, 1, exVotes⟩
    observers := .error .assertion }

def exX : Fin 1 → Fin 2 → Fin 1 → ℝ := fun _ s _ => if s = 0 then 1 else 3
noncomputable def exB : Fin 2 → ℝ := fun s => if s = 0 then -1 / 10 else 1 / 10
/-- the content ambiguity after one pass -/
noncomputable def exA : ℝ := 1 - 38 / 286 / 10

theorem exVotes_mask : exVotes = Ap.maskX (fun _ _ _ => true) exX := by
  funext e s r
  unfold exVotes exX Ap.maskX
  dsimp only
  split <;> rfl

theorem ex_b (c : Fin 1 → Fin 1) : bSimplified (⟨exVotes, c⟩ : Data ℝ 1 2 1 1)
    ⟨fun _ => .fin 2, fun _ => 0, fun _ => .fin 0, fun _ => .fin 1⟩ =
    (fun s => .fin (exB s), (bSimplified (⟨exVotes, c⟩ : Data ℝ 1 2 1 1) ⟨fun _ => .fin 2, fun _ => 0, fun _ => .fin 0, fun _ => .fin 1⟩).2) := by
  rw [exVotes_mask]
  have reg : Regular (fun (_ : Fin 1) (_ : Fin 2) (_ : Fin 1) => true) c
      (⟨fun _ => .fin 2, fun _ => 0, fun _ => .fin 0, fun _ => .fin 1⟩ : Params ℝ 1 2 1) (fun _ => 2) (fun _ => 0) (fun _ => 0) (fun _ => 1) :=
    ⟨fun _ _ _ _ => rfl, fun _ _ _ _ => rfl, fun _ _ _ _ => rfl, fun _ _ _ _ => rfl, fun _ _ _ _ => by norm_num⟩
  refine Prod.ext ?_ rfl
  funext s
  rw [(bSimplified_newton (X := exX) reg s ⟨0, 0, rfl⟩).1]
  rw [newtonStep_of_ne (by norm_num)]
  congr 1
  fin_cases s <;> norm_num [exX, exB]

theorem ex_v (c : Fin 1 → Fin 1) : vSimplified (⟨exVotes, c⟩ : Data ℝ 1 2 1 1)
    ⟨fun _ => .fin 2, fun s => .fin (exB s), fun _ => .fin 0, fun _ => .fin 1⟩ =
    (fun _ => .fin 0, (vSimplified (⟨exVotes, c⟩ : Data ℝ 1 2 1 1) ⟨fun _ => .fin 2, fun s => .fin (exB s), fun _ => .fin 0, fun _ => .fin 1⟩).2) := by
  rw [exVotes_mask]
  have reg : Regular (fun (_ : Fin 1) (_ : Fin 2) (_ : Fin 1) => true) c
      (⟨fun _ => .fin 2, fun s => .fin (exB s), fun _ => .fin 0, fun _ => .fin 1⟩ : Params ℝ 1 2 1) (fun _ => 2) exB (fun _ => 0) (fun _ => 1) :=
    ⟨fun _ _ _ _ => rfl, fun _ _ _ _ => rfl, fun _ _ _ _ => rfl, fun _ _ _ _ => rfl, fun _ _ _ _ => by norm_num⟩
  refine Prod.ext ?_ rfl
  funext s
  rw [(vSimplified_newton (X := exX) reg s ⟨0, 0, rfl⟩).1]
  rw [newtonStep_of_ne (by fin_cases s <;> norm_num [exX, exB, cell2])]
  congr 1
  fin_cases s <;> norm_num [exX, exB, cell1]

theorem ex_a (c : Fin 1 → Fin 1) : aSimplified (⟨exVotes, c⟩ : Data ℝ 1 2 1 1)
    ⟨fun _ => .fin 2, fun s => .fin (exB s), fun _ => .fin 0, fun _ => .fin 1⟩ =
    (fun _ => .fin exA, (aSimplified (⟨exVotes, c⟩ : Data ℝ 1 2 1 1) ⟨fun _ => .fin 2, fun s => .fin (exB s), fun _ => .fin 0, fun _ => .fin 1⟩).2) := by
  rw [exVotes_mask]
  have reg : Regular (fun (_ : Fin 1) (_ : Fin 2) (_ : Fin 1) => true) c
      (⟨fun _ => .fin 2, fun s => .fin (exB s), fun _ => .fin 0, fun _ => .fin 1⟩ : Params ℝ 1 2 1) (fun _ => 2) exB (fun _ => 0) (fun _ => 1) :=
    ⟨fun _ _ _ _ => rfl, fun _ _ _ _ => rfl, fun _ _ _ _ => rfl, fun _ _ _ _ => rfl, fun _ _ _ _ => by norm_num⟩
  refine Prod.ext ?_ rfl
  funext c'
  have hc : ∀ e, c e = c' := fun e => Subsingleton.elim _ _
  rw [(aSimplified_newton (X := exX) reg c' ⟨0, 0, 0, hc 0, rfl⟩).1]
  simp only [hc, if_true]
  rw [newtonStep_of_ne (by norm_num [exX, exB, cell2, Fin.sum_univ_two])]
  congr 1
  norm_num [exX, exB, cell1, cell2, Fin.sum_univ_two, exA]

theorem exA_pos : 0 < exA := by unfold exA; norm_num

theorem ex_x (c : Fin 1 → Fin 1) : xSimplified (⟨exVotes, c⟩ : Data ℝ 1 2 1 1)
    ⟨fun _ => .fin 2, fun s => .fin (exB s), fun _ => .fin 0, fun _ => .fin exA⟩ =
    (fun _ => .fin 2, (xSimplified (⟨exVotes, c⟩ : Data ℝ 1 2 1 1) ⟨fun _ => .fin 2, fun s => .fin (exB s), fun _ => .fin 0, fun _ => .fin exA⟩).2) := by
  rw [exVotes_mask]
  have hA := exA_pos
  have reg : Regular (fun (_ : Fin 1) (_ : Fin 2) (_ : Fin 1) => true) c
      (⟨fun _ => .fin 2, fun s => .fin (exB s), fun _ => .fin 0, fun _ => .fin exA⟩ : Params ℝ 1 2 1) (fun _ => 2) exB (fun _ => 0) (fun _ => exA) :=
    ⟨fun _ _ _ _ => rfl, fun _ _ _ _ => rfl, fun _ _ _ _ => rfl, fun _ _ _ _ => rfl, fun _ _ _ _ => by positivity⟩
  refine Prod.ext ?_ rfl
  funext e
  rw [(xSimplified_newton (X := exX) reg e ⟨0, 0, rfl⟩).1]
  have hw : (∑ s : Fin 2, ∑ r : Fin 1, if true = true then (-1 : ℝ) / ((0 : ℝ) ^ 2 + exA ^ 2) else 0) ≠ 0 := by
    simp only [if_true, Finset.univ_unique, Finset.sum_const, Finset.card_singleton, one_smul, Finset.card_univ, Fintype.card_fin]
    have : 0 < exA ^ 2 := by positivity
    rw [nsmul_eq_mul]
    apply mul_ne_zero (by norm_num)
    apply div_ne_zero (by norm_num)
    positivity
  rw [newtonStep_of_ne hw]
  congr 1
  have h0 : (∑ s : Fin 2, ∑ r : Fin 1, if true = true then (exX e s r - 2 - exB s) / ((0 : ℝ) ^ 2 + exA ^ 2) else 0) = 0 := by
    rw [Fin.sum_univ_two]
    simp only [if_true, Finset.univ_unique, Finset.sum_singleton]
    rw [← add_div]
    norm_num [exX, exB]
  rw [h0]
  norm_num

theorem ex_init (c : Fin 1 → Fin 1) : init .default (⟨exVotes, c⟩ : Data ℝ 1 2 1 1) (fun _ => .fin 2) =
    ⟨fun _ => .fin 2, fun _ => 0, fun _ => .fin 0, fun _ => .fin 1⟩ := by
  have hc : ∀ e c', c e = c' := fun e c' => Subsingleton.elim _ _
  unfold init
  dsimp only
  rw [if_neg (by decide), if_neg (by decide)]
  congr 1
  · funext s
    have hcl : Np.Clean (colL (stack0 fun (e : Fin 1) (s : Fin 2) (t : Fin 1) => exVotes e s t - .fin 2) s) := by
      rw [exVotes_mask]
      have : (fun (e : Fin 1) (s : Fin 2) (t : Fin 1) => Ap.maskX (fun _ _ _ => true) exX e s t - Fl.fin 2) =
        Ap.maskX (fun _ _ _ => true) (fun e s t => exX e s t - 2) := rfl
      rw [this]
      exact mask_col_clean _ _ s
    have hpres : present (colL (stack0 fun (e : Fin 1) (s : Fin 2) (t : Fin 1) => exVotes e s t - .fin 2) s) = [exX 0 s 0 - 2] := by
      rw [colL_stack0]
      fin_cases s <;> rfl
    rw [Np.nanstd, Np.nanvar_eq hcl (by rw [hpres]; simp), hpres]
    have : Spec.sqDev [exX 0 s 0 - 2] = 0 := by simp [Spec.sqDev, Spec.mean]
    rw [this, Fl.sqrt_fin (by simp)]
    show Fl.fin (Real.sqrt _) = _
    simp
  · funext c'
    unfold stdContent
    have hl : ((List.finRange 1).flatMap fun e =>
        if c e = c' then (List.ofFn fun s : Fin 2 => List.ofFn fun t : Fin 1 => exVotes e s t - .fin 2).flatten else []) =
        [(-1 : ℝ), 1].map Fl.fin := by
      have : ∀ e, (if c e = c' then (List.ofFn fun s : Fin 2 => List.ofFn fun t : Fin 1 => exVotes e s t - Fl.fin 2).flatten else []) = [(-1 : ℝ), 1].map Fl.fin := by
        intro e
        rw [if_pos (hc e c')]
        show [Fl.fin (1 : ℝ) - Fl.fin 2, Fl.fin (3 : ℝ) - Fl.fin 2] = _
        rw [Fl.fin_sub, Fl.fin_sub]
        norm_num
      simp only [this]
      rfl
    rw [hl]
    have hcl : Np.Clean ([(-1 : ℝ), 1].map Fl.fin) := by
      intro x hx
      obtain ⟨v, _, rfl⟩ := List.mem_map.mp hx
      exact Or.inr ⟨v, rfl⟩
    have hpres : present ([(-1 : ℝ), 1].map Fl.fin) = [-1, 1] := rfl
    rw [Np.nanstd, Np.nanvar_eq hcl (by rw [hpres]; simp), hpres]
    have : Spec.sqDev [(-1 : ℝ), 1] = 2 := by norm_num [Spec.sqDev, Spec.mean]
    rw [this, Fl.sqrt_fin (by norm_num)]
    show Fl.fin (Real.sqrt _) = _
    norm_num

theorem ex_step (c : Fin 1 → Fin 1) : (step .default ⟨bSimplified, vSimplified, aSimplified, xSimplified⟩ (⟨exVotes, c⟩ : Data ℝ 1 2 1 1)
    ⟨fun _ => .fin 2, fun _ => 0, fun _ => .fin 0, fun _ => .fin 1⟩).1 =
    ⟨fun _ => .fin 2, fun s => .fin (exB s), fun _ => .fin 0, fun _ => .fin exA⟩ := by
  have m1 : Fl.maximum (Fl.fin (0 : ℝ)) 0 = .fin 0 := by rw [Fl.zero_def, Fl.maximum_fin, max_self]
  have m2 : Fl.maximum (Fl.fin exA) 0 = .fin exA := by rw [Fl.zero_def, Fl.maximum_fin, max_eq_left exA_pos.le]
  unfold step
  dsimp only
  rw [ex_b]
  simp only [reduceCtorEq, if_false]
  rw [ex_v]
  simp only [m1]
  rw [ex_a]
  simp only [m2]
  rw [ex_x]

theorem ex_mos {mos : Result String ℝ} (h : runMOS exMleReader {} = .ok mos) (e : Fin 1) : (mos.qualityScores[e.val]?).getD .nan = .fin 2 := by
  rw [runMOS_default rfl h]
  have hq : (mosAndStats (fun E _ _ => E * 2) ⟨1, 2, 1, exVotes⟩ ⟨1, 2, 1, exVotes⟩ : Result String ℝ).qualityScores =
    List.ofFn (meanAlongS exVotes) := rfl
  dsimp only
  rw [hq]
  have : meanAlongS exVotes e = .fin 2 := by
    rw [meanAlongS_spec _ _ (by intro s r; rw [exVotes_mask]; exact Or.inr ⟨_, rfl⟩)]
    have hp : present (videoCells exVotes e) = [1, 3] := rfl
    unfold meanOrNan
    rw [hp]
    norm_num [Spec.mean]
  have he : e = 0 := Subsingleton.elim _ _
  subst he
  simpa using this

/-- the hypothesis of `C34_methods` holds for the example -/
theorem ex_positive : VariancesStayPositive .default exMleReader {} := by
  intro p C mos cid hp hC hm hcid
  have hp' : p = { arr := ⟨1, 2, 1, exVotes⟩, orig := ⟨1, 2, 1, exVotes⟩ } := by
    have := preprocess_default (rd := exMleReader) rfl
    rw [this] at hp
    exact (Except.ok.inj hp).symm
  subst hp'
  have hC' : C = 1 := by
    have : numContents exMleReader = .ok 1 := rfl
    rw [this] at hC
    exact (Except.ok.inj hC).symm
  subst hC'
  have hq : (fun e : Fin 1 => (mos.qualityScores[e.val]?).getD .nan) = fun _ => Fl.fin (2 : ℝ) := funext fun e => ex_mos hm e
  refine ⟨fun e s r => by show NumOrNan (exVotes e s r); rw [exVotes_mask]; exact Or.inr ⟨_, rfl⟩, ?_⟩
  dsimp only at cid ⊢
  have hA := exA_pos
  have hpos : ∀ q, Visited .default ⟨bSimplified, vSimplified, aSimplified, xSimplified⟩ defaultThr
      (⟨exVotes, cid⟩ : Data ℝ 1 2 1 1) ⟨fun _ => .fin 2, fun _ => 0, fun _ => .fin 0, fun _ => .fin 1⟩ q →
      q = ⟨fun _ => .fin 2, fun _ => 0, fun _ => .fin 0, fun _ => .fin 1⟩ := by
    intro q hq
    induction hq with
    | start => rfl
    | next hv hd hlt ih =>
      exfalso
      subst ih
      rw [ex_step] at hd
      have hn : Np.linalgNorm (List.ofFn fun _ : Fin 1 => Fl.fin (2 : ℝ) - Fl.fin 2) = .ok (.fin 0) := by
        unfold Np.linalgNorm
        rw [Fl.fin_sub, sub_self, if_pos (by simp [Fl.isFinite])]
        have : Np.sum ((List.ofFn fun _ : Fin 1 => Fl.fin (0 : ℝ)).map (·.sq)) = .fin 0 := by
          simp [Np.sum, Fl.sq_fin, Fl.zero_def]
        rw [this, Fl.sqrt_fin le_rfl]
        show Except.ok (Fl.fin (Real.sqrt 0)) = _
        rw [Real.sqrt_zero]
      rw [hn] at hd
      have hδ := (Except.ok.inj hd).symm
      rw [hδ] at hlt
      unfold defaultThr Fl.dec at hlt
      rw [Fl.lt_fin] at hlt
      norm_num at hlt
  intro q hv
  show VariancesPositive (⟨exVotes, cid⟩ : Data ℝ 1 2 1 1) q ∧ _
  have hv' := hpos q (by
    have h0 := ex_init cid
    rw [← h0, ← hq]
    exact hv)
  rw [hv']
  refine ⟨fun e s r v _ => ⟨0, 1, rfl, rfl, by norm_num⟩, ?_⟩
  intro e s r v _
  erw [ex_step]
  exact ⟨0, exA, rfl, rfl, by positivity⟩

example : Mle.run .default exMleReader { gradientMethod := some "original" } =
    Mle.run .default exMleReader { gradientMethod := some "simplified" } :=
  C34_methods .default exMleReader {} ex_positive

theorem ex_norm : Np.linalgNorm (List.ofFn fun _ : Fin 1 => Fl.fin (2 : ℝ) - Fl.fin 2) = .ok (.fin 0) := by
  unfold Np.linalgNorm
  rw [Fl.fin_sub, sub_self, if_pos (by simp [Fl.isFinite])]
  have : Np.sum ((List.ofFn fun _ : Fin 1 => Fl.fin (0 : ℝ)).map (·.sq)) = .fin 0 := by
    simp [Np.sum, Fl.sq_fin, Fl.zero_def]
  rw [this, Fl.sqrt_fin le_rfl]
  show Except.ok (Fl.fin (Real.sqrt 0)) = _
  rw [Real.sqrt_zero]

/-- the run on the example completes with the parameters computed above -/
theorem ex_run : ∃ res, runMLE exMleReader {} = .ok res ∧ res.rawScores = some ⟨1, 2, 1, exVotes⟩ ∧
    res.qualityScores = List.ofFn (fun _ : Fin 1 => .fin 2) ∧
    res.observerBias = some (List.ofFn fun s => .fin (exB s)) ∧
    res.observerInconsistency = some (List.ofFn fun _ : Fin 2 => .fin 0) ∧
    res.contentAmbiguity = some (List.ofFn fun _ : Fin 1 => .fin exA) := by
  have hp := preprocess_default (rd := exMleReader) rfl
  obtain ⟨mos, hm⟩ : ∃ mos, runMOS exMleReader {} = .ok mos := by
    unfold runMOS runModeling mosRunModeling
    rw [hp]
    exact ⟨_, rfl⟩
  obtain ⟨cid, hcid⟩ : ∃ cid, contentIndex (contentIdOfDisVideos exMleReader.disVideos) 1 1 = .ok cid :=
    ⟨_, dif_pos ⟨rfl, by intro c hc; simp [exMleReader, contentIdOfDisVideos] at hc; subst hc; decide⟩⟩
  have hq : (fun e : Fin 1 => (mos.qualityScores[e.val]?).getD .nan) = fun _ => Fl.fin (2 : ℝ) := funext fun e => ex_mos hm e
  have hdens : density (K := ℝ) none 1 = .ok fun o x b v a => gaussian o (x + b) (vadd v a).sqrt := rfl
  have hf : fitArr .default .simplified none defaultThr (⟨exVotes, cid⟩ : Data ℝ 1 2 1 1)
      (fun e => (mos.qualityScores[e.val]?).getD .nan) = .ok ⟨⟨fun _ => .fin 2, fun s => .fin (exB s), fun _ => .fin 0, fun _ => .fin exA⟩,
        (step .default ⟨bSimplified, vSimplified, aSimplified, xSimplified⟩ (⟨exVotes, cid⟩ : Data ℝ 1 2 1 1)
          ⟨fun _ => .fin 2, fun _ => 0, fun _ => .fin 0, fun _ => .fin 1⟩).2, 1⟩ := by
    unfold fitArr
    show loop .default _ none defaultThr _ 0 _ = _
    rw [hq, ex_init, loop_stop hdens (by
      rw [ex_step]
      dsimp only
      rw [ex_norm]
      dsimp only
      unfold defaultThr Fl.dec
      rw [Fl.lt_fin]
      norm_num) 0, ex_step]
  obtain ⟨obs, hr⟩ := run_fwd (⟨by decide, rfl, hp, rfl, hm, hcid, hf, hdens, Or.inr rfl⟩ :
    RunOf .default exMleReader {} { arr := ⟨1, 2, 1, exVotes⟩, orig := ⟨1, 2, 1, exVotes⟩ } 1 .simplified mos cid
      ⟨⟨fun _ => .fin 2, fun s => .fin (exB s), fun _ => .fin 0, fun _ => .fin exA⟩,
        (step .default ⟨bSimplified, vSimplified, aSimplified, xSimplified⟩ (⟨exVotes, cid⟩ : Data ℝ 1 2 1 1)
          ⟨fun _ => .fin 2, fun _ => 0, fun _ => .fin 0, fun _ => .fin 1⟩).2, 1⟩ _)
  have hmean : Np.mean (List.ofFn fun s => Fl.fin (exB s)) = .fin 0 := by
    have : (List.ofFn fun s => Fl.fin (exB s)) = [(-1 / 10 : ℝ), 1 / 10].map Fl.fin := by
      simp [exB, List.ofFn_succ]
    rw [this, Np.mean_map_fin (by simp)]
    norm_num [Spec.mean]
  refine ⟨_, hr, rfl, ?_, ?_, rfl, rfl⟩
  · show List.ofFn (fun _ : Fin 1 => Fl.fin (2 : ℝ) + Np.mean (List.ofFn fun s => Fl.fin (exB s))) = _
    rw [hmean, Fl.fin_add, add_zero]
  · show some (List.ofFn (fun s => Fl.fin (exB s) - Np.mean (List.ofFn fun s => Fl.fin (exB s)))) = _
    rw [hmean]
    simp only [Fl.fin_sub, sub_zero]

/-- the hypotheses of `C35_loglikelihood` on the example -/
example : ∃ res, runMLE exMleReader {} = .ok res ∧ res.loglikelihood =
    some (.fin (logLik (fun _ _ _ => true) exX (fun _ => (0 : Fin 1)) (fun _ => 2) exB (fun _ => 0) (fun _ => exA) /
      (∑ _ : Fin 1, ∑ _ : Fin 2, ∑ _ : Fin 1, if true = true then 1 else 0 : ℕ))) := by
  obtain ⟨res, hr, h1, h2, h3, h4, h5⟩ := ex_run
  have hA := exA_pos
  refine ⟨res, hr, ?_⟩
  exact C35_loglikelihood exMleReader {} res hr rfl rfl (Or.inl rfl) _ h1 (fun _ _ _ => true) exX
    (fun e s r => congrFun (congrFun (congrFun exVotes_mask e) s) r) ⟨0, 0, 0, rfl⟩ 1 (fun _ => 0) rfl (fun _ => 2) exB (fun _ => 0)
    (fun _ => exA) h2 h3 h4 h5 (fun _ _ _ _ => by positivity)

end Sureal.Props
