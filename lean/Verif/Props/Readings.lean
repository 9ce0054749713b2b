import Verif.Lemmas.Readings
import Verif.Props.Validate
/-!
# C127: the maximum likelihood models read the votes twice

`_run_modeling` takes the votes from the reader and then runs `MosModel(dataset_reader).run_modeling()`, which takes them again.  For a reader that
draws its votes anew whenever it is asked (a synthetic reader or a reader with missing votes, without a seed), the scores from which the iterations
start belong to other votes than those that are fitted.
-/
set_option linter.unusedSectionVars false
namespace Sureal.Props
open Sureal Spec Mock Routine
variable {κ K : Type} [LinearOrder κ] [Field K] [LinearOrder K] [IsStrictOrderedRing K] [MathFn K]

/-- **C127, with a seed** (the full claim, one set of votes per run, fails without one: `C127_refuted_start`, `C127_refuted_missing`).  With a
seed, the normal reader or missing votes, what the validation returns for a maximum likelihood model is the run of this model on the one set of
synthetic votes that all models and the written file share. -/
theorem C127_seeded_partial {cls : SynthClass} {w : Rand K} {s : Int} {models : List (String × Modelled κ K)}
    {d : Dataset κ K} {truth : SynthKw K} {missing : Option (Fl K)} {write : Bool} {out : Validation κ K}
    (hcls : cls = .normal ∨ missing.isSome = true)
    (h : validate cls w (some (some s)) models (.ok d) truth missing write = .ok out)
    (hnd : (models.map (·.1)).Nodup) (j : ℕ) (ty : String) (ppf : Fl K → ℕ → Fl K) (mode : Mle.Mode) (o : Mle.Opts K)
    (hj : models[j]? = some (ty, mle ppf mode o)) :
    ∃ rd r c, readerAt cls w (some (some s)) d truth missing 0 = .ok rd ∧ Mle.run mode rd o = .ok r ∧ out.results.lookup ty = some c ∧
      c.fit.res = r := by
  obtain ⟨d', fits, h1, h4, h5, -, h7⟩ := C98_results h
  cases h1
  obtain ⟨fit, k1, k2⟩ := h5 j ty _ hj
  obtain ⟨c, c1, c2, -⟩ := h7 hnd ty fit (List.mem_of_getElem? k1)
  unfold mle at k2
  dsimp only at k2
  rw [readerAt_seeded w s d truth hcls, readerAt_seeded w s d truth hcls (_ + 1)] at k2
  split at k2
  · cases k2
  · rename_i rd hrd
    dsimp only at k2
    split at k2
    · cases k2
    · rename_i r hr
      cases k2
      exact ⟨rd, r, c, hrd, hr, c1, by rw [c2]⟩

/-- **C127, what the second reading is used for.** In every completed run, with or without a seed, the votes reported and fitted are those of the
first reading; of the second reading only the mean opinion scores are used, as the point where the iterations start. -/
theorem C127_first_votes (mode : Mle.Mode) (rd rd2 : Reader κ K) (o : Mle.Opts K) (res : Result κ K) (h : Mle.runTwo mode rd rd2 o = .ok res) :
    ∃ (p : Prep K) (C : ℕ) (m : Mle.Method) (mos : Result κ K) (cid : Fin p.arr.E → Fin C) (f : Mle.Fit K p.arr.E p.arr.S C),
      preprocess rd o.base = .ok p ∧ Mle.numContents rd = .ok C ∧ Mle.method o = .ok m ∧ runMOS rd2 {} = .ok mos ∧
      Mle.contentIndex (contentIdOfDisVideos rd.disVideos) p.arr.E C = .ok cid ∧
      Mle.fitArr mode m o.numericalPdf (o.deltaThr.getD Mle.defaultThr) (⟨p.arr.get, cid⟩ : Mle.Data K p.arr.E p.arr.S p.arr.R C)
        (fun e => (mos.qualityScores[e.val]?).getD .nan) = .ok f ∧
      res.rawScores = some p.arr ∧ res.numIter = some f.itr ∧ res.qualityScoresStd = some (List.ofFn f.std.x) ∧
      res.contentAmbiguity = if mode = .contentOblivious then none else some (List.ofFn (Mle.centre (Ap.forced o.base) f.p).a) := by
  obtain ⟨p, C, m, mos, cid, f, dens, obs, hr, hres⟩ := Mle.runTwo_inv h
  subst hres
  exact ⟨p, C, m, mos, cid, f, hr.hp, hr.hC, hr.hm, hr.hmos, hr.hcid, hr.hf, rfl, rfl, rfl, rfl⟩

theorem norm_nan {l : List (Fl K)} (h : Fl.nan ∈ l) : Np.linalgNorm l = .error .value := by
  unfold Np.linalgNorm
  rw [if_neg]
  intro hall
  have := List.all_eq_true.mp hall _ h
  simp [Fl.isFinite] at this

/-- **C127, refuted for missing votes.** Whatever the votes of the first reading: if the second reading has no vote on some video, the run raises a
`ValueError` (`scipy.linalg.norm` of NaN), also when the model fits the votes of the first reading without any problem. -/
theorem C127_refuted_missing (mode : Mle.Mode) (rd rd2 : Reader κ K) (o : Mle.Opts K) (res mos : Result κ K) (a a2 : Arr3D (Fl K))
    (h : Mle.run mode rd o = .ok res) (hraw : res.rawScores = some a)
    (h2 : rd2.scores = .ok a2) (hmos : runMOS rd2 {} = .ok mos) (hE : a2.E = a.E) (e : Fin a2.E)
    (hnone : ∀ s r, a2.get e s r = .nan) :
    Mle.runTwo mode rd rd2 o = .error .value := by
  obtain ⟨p, C, m, mos1, cid, f, dens, obs, hr, hres⟩ := Mle.run_inv h
  have ha : a = p.arr := by
    rw [hres] at hraw
    exact (Option.some.inj hraw).symm
  subst ha
  have he : e.val < p.arr.E := hE ▸ e.isLt
  have hm : (mos.qualityScores[e.val]?).getD .nan = .nan := by
    rw [runMOS_default h2 hmos]
    show ((List.ofFn (meanAlongS a2.get))[e.val]?).getD .nan = .nan
    rw [List.getElem?_ofFn, dif_pos e.isLt]
    show meanAlongS a2.get e = .nan
    rw [meanAlongS_spec _ _ (fun s r => Or.inl (hnone s r))]
    have : present (videoCells a2.get e) = [] := by
      rw [List.eq_nil_iff_forall_not_mem]
      intro x hx
      unfold present at hx
      rw [List.mem_filterMap] at hx
      obtain ⟨y, hy, hyx⟩ := hx
      obtain ⟨s, r, rfl⟩ := (mem_videoCells a2.get e y).mp hy
      rw [hnone] at hyx
      cases hyx
    unfold meanOrNan
    rw [this]
  obtain ⟨u, hu, -⟩ := Mle.fitArr_inv hr.hf
  have hfit : Mle.fitArr mode m o.numericalPdf (o.deltaThr.getD Mle.defaultThr) (⟨p.arr.get, cid⟩ : Mle.Data K p.arr.E p.arr.S p.arr.R C)
      (fun e => (mos.qualityScores[e.val]?).getD .nan) = .error .value := by
    unfold Mle.fitArr
    rw [hu]
    dsimp only
    rw [Mle.loop_unfold, norm_nan]
    rw [List.mem_ofFn]
    refine ⟨⟨e.val, he⟩, ?_⟩
    show (mos.qualityScores[e.val]?).getD .nan - _ = _
    rw [hm, Fl.nan_sub]
  have h0 : Mle.runModelingTwo mode rd rd2 { o with base := o.base } = .error .value := by
    have hm' : Mle.method { o with base := o.base } = .ok m := hr.hm
    unfold Mle.runModelingTwo
    rw [if_neg hr.hsr, hm']
    dsimp only
    rw [hr.hp]
    dsimp only
    rw [hr.hC]
    dsimp only
    rw [hmos]
    dsimp only
    rw [hr.hcid]
    dsimp only
    rw [hfit]
  unfold Mle.runTwo runModeling
  simp only [h0]

/-! ## Witnesses

The roots taken are of 0 and 1 only (apart from those in the reported standard deviations), so `ratMath` is as good as the real root. -/

/-- one video, two observers -/
def exTwice : Dataset String ℚ :=
  { refVideos := [⟨0, "r", []⟩]
    disVideos := [⟨0, 0, "a", some (.seq false [.one (.fin 1), .one (.fin 3)]), none, none, []⟩]
    refScore := none, datasetName := none, attrs := [] }

/-- draws that count the readings; of the readings with missing votes the first one misses none, the others miss all -/
def exTwiceRand : Rand ℚ :=
  { noise := fun i _ => i, uniform := fun i _ => if i = 0 then 1 else 0, seededNoise := fun _ n => n, seededUniform := fun _ n => n / 8 }

attribute [local instance] ratMath in
/-- **C127, refuted without a seed.** The votes of the first reading are 0 and 2, of the second 2 and 4.  The model gives the score 1 on the former and
3 on the latter; the validation reports 2.62. -/
theorem C127_refuted_start (ppf : Fl ℚ → ℕ → Fl ℚ) : ∃ rd0 rd1 fit r0 r1,
    readerAt .normal exTwiceRand none exTwice (synthKw [1] [-1, 1] [2, 2] [0] [0] none) none 0 = .ok rd0 ∧
    readerAt .normal exTwiceRand none exTwice (synthKw [1] [-1, 1] [2, 2] [0] [0] none) none 1 = .ok rd1 ∧
    Mle.run .default rd0 { deltaThr := some 1 } = .ok r0 ∧ r0.qualityScores = [.fin 1] ∧
    Mle.run .default rd1 { deltaThr := some 1 } = .ok r1 ∧ r1.qualityScores = [.fin 3] ∧
    ((mle ppf .default { deltaThr := some 1 }).run fun k =>
      readerAt .normal exTwiceRand none exTwice (synthKw [1] [-1, 1] [2, 2] [0] [0] none) none k) = .ok fit ∧
    fit.res.qualityScores = [.fin (262 / 100)] := by
  obtain ⟨rd0, h0, k0⟩ := okWith_elim
    (x := readerAt .normal exTwiceRand none exTwice (synthKw [1] [-1, 1] [2, 2] [0] [0] none) none 0)
    (P := fun rd0 => decide ((Mle.once .default rd0 { deltaThr := some 1 }).map (·.1) = some [.fin 1]) &&
      okWith (readerAt .normal exTwiceRand none exTwice (synthKw [1] [-1, 1] [2, 2] [0] [0] none) none 1) fun rd1 =>
        decide ((Mle.once .default rd1 { deltaThr := some 1 }).map (·.1) = some [.fin 3]) &&
        decide ((Mle.onceTwo .default rd0 rd1 { deltaThr := some 1 }).map (·.1) = some [.fin (262 / 100)])) (by decide +kernel)
  rw [Bool.and_eq_true] at k0
  obtain ⟨rd1, h1, k1⟩ := okWith_elim k0.2
  rw [Bool.and_eq_true] at k1
  obtain ⟨o0, e0, q0⟩ := Option.map_eq_some_iff.mp (of_decide_eq_true k0.1)
  obtain ⟨o1, e1, q1⟩ := Option.map_eq_some_iff.mp (of_decide_eq_true k1.1)
  obtain ⟨o2, e2, q2⟩ := Option.map_eq_some_iff.mp (of_decide_eq_true k1.2)
  obtain ⟨r0, a0, b0, -⟩ := Mle.run_of_once e0
  obtain ⟨r1, a1, b1, -⟩ := Mle.run_of_once e1
  obtain ⟨r2, a2, b2, -⟩ := Mle.runTwo_of_once e2
  refine ⟨rd0, rd1, { res := r2, biasCi95 := biasIntervals r2, inconsistencyCi95 := inconsistencyIntervals ppf r2 }, r0, r1, h0, h1, a0,
    b0.trans q0, a1, b1.trans q1, ?_, ?_⟩
  · unfold mle
    dsimp only
    rw [h0]
    dsimp only
    rw [h1]
    dsimp only
    rw [a2]
  · exact b2.trans q2

attribute [local instance] ratMath in
/-- `C127_refuted_missing` applies: with missing votes and no seed, the model fits the votes of the first reading but the run fails -/
example (ppf : Fl ℚ → ℕ → Fl ℚ) : ∃ rd0 r0,
    readerAt .normal exTwiceRand none exTwice (synthKw [1] [-1, 1] [2, 2] [0] [0] none) (some (.fin (1 / 2))) 0 = .ok rd0 ∧
    Mle.run .default rd0 {} = .ok r0 ∧
    ((mle ppf .default {}).run fun k =>
      readerAt .normal exTwiceRand none exTwice (synthKw [1] [-1, 1] [2, 2] [0] [0] none) (some (.fin (1 / 2))) k) = .error .value := by
  obtain ⟨rd0, h0, k0⟩ := okWith_elim
    (x := readerAt .normal exTwiceRand none exTwice (synthKw [1] [-1, 1] [2, 2] [0] [0] none) (some (.fin (1 / 2))) 0)
    (P := fun rd0 => (Mle.once .default rd0 {}).isSome && okWith (preprocess rd0 {}) fun p => decide (p.arr.E = 1)) (by decide +kernel)
  rw [Bool.and_eq_true] at k0
  obtain ⟨o0, e0⟩ := Option.isSome_iff_exists.mp k0.1
  obtain ⟨p, hp, hpE⟩ := okWith_elim k0.2
  obtain ⟨r0, a0, -⟩ := Mle.run_of_once e0
  obtain ⟨p', C, m, mos1, cid, f, dens, obs, hr, hres⟩ := Mle.run_inv a0
  obtain ⟨rd1, h1, k1⟩ := okWith_elim
    (x := readerAt .normal exTwiceRand none exTwice (synthKw [1] [-1, 1] [2, 2] [0] [0] none) (some (.fin (1 / 2))) 1)
    (P := fun rd1 => okWith (runMOS rd1 {}) (fun _ => true) && okWith rd1.scores fun a => decide (a.E = 1) &&
      decide (∀ e s r, a.get e s r = .nan)) (by decide +kernel)
  rw [Bool.and_eq_true] at k1
  obtain ⟨mos, hmos, -⟩ := okWith_elim k1.1
  obtain ⟨a2, ha2, k2⟩ := okWith_elim k1.2
  rw [Bool.and_eq_true] at k2
  have hE2 := of_decide_eq_true k2.1
  have hpp : p' = p := by
    have := hr.hp
    rw [show preprocess rd0 ({} : Mle.Opts ℚ).base = .ok p from hp] at this
    exact (Except.ok.inj this).symm
  have key := C127_refuted_missing .default rd0 rd1 {} r0 mos p'.arr a2 a0 (by rw [hres]; rfl) ha2 hmos
    (by rw [hE2, hpp, of_decide_eq_true hpE]) ⟨0, by omega⟩ (of_decide_eq_true k2.2 _)
  refine ⟨rd0, r0, h0, a0, ?_⟩
  unfold mle
  dsimp only
  rw [h0]
  dsimp only
  rw [h1]
  dsimp only
  rw [key]

theorem ciPercentage_ok {xs ys l u : List (Fl K)} (h1 : xs.length = ys.length) (h2 : l.length = ys.length) (h3 : u.length = ys.length)
    (h4 : 0 < ys.length) : ∃ v, Ci.ciPercentage (some xs) (some ys) (some [l, u]) = .ok v := by
  unfold Ci.ciPercentage Ci.shape2
  dsimp only
  rw [if_pos (by simp [h2, h3])]
  dsimp only
  rw [if_pos (by simp), if_pos ⟨h1, h2.symm⟩]
  rw [if_neg]
  · exact ⟨_, rfl⟩
  · simp only [List.getElem?_cons_zero, List.getElem?_cons_succ, Option.getD_some]
    cases ys with
    | nil => simp at h4
    | cons y ys =>
      cases xs with
      | nil => simp at h1
      | cons x xs =>
        cases l with
        | nil => simp at h2
        | cons a l =>
          cases u with
          | nil => simp at h3
          | cons b u => simp [Ci.indInCi]

attribute [local instance] ratMath in
/-- a validation of the subject-oblivious model with the seed 7 that completes -/
theorem exTwice_validate (ppf : Fl ℚ → ℕ → Fl ℚ) : ∃ out,
    validate .normal exTwiceRand (some (some 7)) [("MLE_SO", mle ppf .subjectOblivious { deltaThr := some 1 })] (.ok exTwice)
      (synthKw [1] [-1, 1] [2, 2] [0] [0] none) none false = .ok out ∧
    ∃ c, out.results.lookup "MLE_SO" = some c ∧ c.fit.res.qualityScores.length = 1 := by
  obtain ⟨rd0, h0, k0⟩ := okWith_elim
    (x := readerAt .normal exTwiceRand (some (some 7)) exTwice (synthKw [1] [-1, 1] [2, 2] [0] [0] none) none 0)
    (P := fun rd0 => (Mle.onceTwo .subjectOblivious rd0 rd0 { deltaThr := some 1 }).isSome && okWith (preprocess rd0 {}) fun p => decide (p.arr.E = 1))
    (by decide +kernel)
  rw [Bool.and_eq_true] at k0
  obtain ⟨o0, e0⟩ := Option.isSome_iff_exists.mp k0.1
  obtain ⟨p, hp, hpE⟩ := okWith_elim k0.2
  obtain ⟨r0, a0, -⟩ := Mle.runTwo_of_once e0
  obtain ⟨p', C, m, mos1, cid, f, dens, obs, hr, hres⟩ := Mle.runTwo_inv a0
  have hpp : p' = p := by
    have := hr.hp
    rw [show preprocess rd0 ({ deltaThr := some 1 } : Mle.Opts ℚ).base = .ok p from hp] at this
    exact (Except.ok.inj this).symm
  have hE : p'.arr.E = 1 := by rw [hpp]; exact of_decide_eq_true hpE
  have q1 : r0.qualityScores.length = 1 := by
    rw [hres]
    show (List.ofFn _).length = 1
    rw [List.length_ofFn, hE]
  obtain ⟨l, u, q2, q3, q4⟩ : ∃ l u, r0.qualityScoresCi95 = some (l, u) ∧ l.length = 1 ∧ u.length = 1 := by
    rw [hres]
    exact ⟨_, _, rfl, by rw [List.length_ofFn, hE], by rw [List.length_ofFn, hE]⟩
  have q5 : r0.observerBias = none := by rw [hres]; rfl
  have q6 : r0.observerInconsistency = none := by rw [hres]; rfl
  have hread := readerAt_seeded (κ := String) exTwiceRand 7 exTwice (synthKw [1] [-1, 1] [2, 2] [0] [0] none) (cls := .normal) (missing := none)
    (Or.inl rfl)
  obtain ⟨v, hv⟩ := ciPercentage_ok (xs := [Fl.fin 1]) (ys := r0.qualityScores) (l := l) (u := u) (by rw [q1]; rfl) (by rw [q1, q3]) (by rw [q1, q4])
    (by rw [q1]; decide)
  unfold validate fitAll fitAll mle
  simp only [Option.all_none, if_true]
  simp only [Bool.false_eq_true, if_false, Nat.zero_add, hread 1, h0, a0]
  have hperc : ∃ c, checkOne (synthKw [1] [-1, 1] [2, 2] [0] [0] none) [("MLE_SO", ({ fit := { res := r0, biasCi95 := biasIntervals r0, inconsistencyCi95 := inconsistencyIntervals ppf r0 } } : Checked String ℚ))] "MLE_SO"
      { res := r0, biasCi95 := biasIntervals r0, inconsistencyCi95 := inconsistencyIntervals ppf r0 } = .ok c := by
    unfold checkOne percentage
    dsimp only [synthKw]
    rw [q2, q5, q6]
    simp [hv]
  obtain ⟨c, hc⟩ := hperc
  unfold checkAll checkAll
  simp only [List.foldl_cons, List.foldl_nil, setKey]
  rw [hc]
  refine ⟨_, rfl, ?_⟩
  obtain ⟨-, c0, c1, k1, k2, k3, -⟩ := checkOne_lookup hc
  refine ⟨c1, k2, ?_⟩
  rw [k3]
  simp only [List.lookup_cons, beq_self_eq_true] at k1
  cases k1
  exact q1

attribute [local instance] ratMath in
/-- `C127_seeded_partial` applies -/
example (ppf : Fl ℚ → ℕ → Fl ℚ) : ∃ out,
    validate .normal exTwiceRand (some (some 7)) [("MLE_SO", mle ppf .subjectOblivious { deltaThr := some 1 })] (.ok exTwice)
      (synthKw [1] [-1, 1] [2, 2] [0] [0] none) none false = .ok out := by
  obtain ⟨out, h, -⟩ := exTwice_validate ppf
  exact ⟨out, h⟩

/-- **C127, the models after it.** A maximum likelihood model uses up two readings: a model after it that reads the votes once gets the third one
(the fourth, if a file is written). -/
theorem C127_next {cls : SynthClass} {w : Rand K} {seed : Option (Option Int)} {d : Dataset κ K} {truth : SynthKw K} {missing : Option (Fl K)}
    {write : Bool} {out : Validation κ K} {ty ty' : String} {ppf : Fl K → ℕ → Fl K} {mode : Mle.Mode} {o : Mle.Opts K}
    {f : Reader κ K → Py (Fit κ K)} (hne : ty ≠ ty')
    (h : validate cls w seed [(ty, mle ppf mode o), (ty', .once f)] (.ok d) truth missing write = .ok out) :
    ∃ rd c, readerAt cls w seed d truth missing (if write then 3 else 2) = .ok rd ∧ f rd = .ok c.fit ∧ out.results.lookup ty' = some c := by
  obtain ⟨d', fits, h1, -, h5, -, h7⟩ := C98_results h
  cases h1
  obtain ⟨fit, k1, k2⟩ := h5 1 ty' _ rfl
  obtain ⟨c, c1, c2, -⟩ := h7 (by simpa using hne) ty' fit (List.mem_of_getElem? k1)
  have k3 : (Modelled.once f).run (fun k => readerAt cls w seed d truth missing ((if write then 3 else 2) + k)) = .ok fit := by
    rw [← k2]
    cases write <;> rfl
  clear k2
  rename _ => k2
  unfold Modelled.once at k2
  dsimp only at k2
  split at k2
  · cases k2
  · rename_i rd hrd
    exact ⟨rd, c, hrd, by rw [c2]; exact k2, c1⟩

attribute [local instance] ratMath in
/-- `C127_next` applies, and without a seed the third reading is not the first one -/
example (ppf : Fl ℚ → ℕ → Fl ℚ) : ∃ r,
    fitAll (readerAt .normal exTwiceRand none exTwice (synthKw [1] [-1, 1] [2, 2] [0] [0] none) none) 0
      [("MLE_SO", mle ppf .subjectOblivious { deltaThr := some 1 }), ("MOS", .once exMos)] = .ok r := by
  obtain ⟨rd0, h0, k0⟩ := okWith_elim
    (x := readerAt .normal exTwiceRand none exTwice (synthKw [1] [-1, 1] [2, 2] [0] [0] none) none 0)
    (P := fun rd0 => okWith (readerAt .normal exTwiceRand none exTwice (synthKw [1] [-1, 1] [2, 2] [0] [0] none) none 1) fun rd1 =>
      (Mle.onceTwo .subjectOblivious rd0 rd1 { deltaThr := some 1 }).isSome &&
      okWith (readerAt .normal exTwiceRand none exTwice (synthKw [1] [-1, 1] [2, 2] [0] [0] none) none 2) fun rd2 =>
        okWith (exMos rd2) fun _ => true) (by decide +kernel)
  obtain ⟨rd1, h1, k1⟩ := okWith_elim k0
  rw [Bool.and_eq_true] at k1
  obtain ⟨o, e⟩ := Option.isSome_iff_exists.mp k1.1
  obtain ⟨rd2, h2, k2⟩ := okWith_elim k1.2
  obtain ⟨fit, h3, -⟩ := okWith_elim k2
  obtain ⟨r, a, -⟩ := Mle.runTwo_of_once e
  unfold fitAll fitAll fitAll mle Modelled.once
  simp only [Nat.zero_add, h0, h1, a, Nat.add_zero, h2, h3]
  exact ⟨_, rfl⟩

end Sureal.Props
